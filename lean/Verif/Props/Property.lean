import Verif.Spec.Property
import Verif.Lemmas.ExecOf

namespace Zinx.Props
open Zinx Zinx.Property

variable {V : Type}

/-! ## C83 -/

/-- Holds `propertyLock`. -/
def propInside : Pc V → Bool
  | .locked _ => true
  | .put _ _ => true
  | .access _ => true
  | .unlock _ => true
  | _ => false

structure PropInv (s : State V) : Prop where
  lock : ∀ i, propInside (s.pc i) = true ↔ s.lock = some i
  map : ∀ i k v, s.pc i = .put k v ∨ s.pc i = .access (.set k v) → s.map ≠ none

theorem propInv_step {s t : State V} {l : Label V} (h : PropInv s) (hs : Step V s l t) : PropInv t := by
  obtain ⟨h1, h2⟩ := h
  constructor
  · intro j
    have hj := h1 j
    cases hs <;> (try simp only [Property.set]) <;> grind [propInside]
  · intro j k v
    have hj := h2 j k v
    cases hs <;> (try simp only [Property.set]) <;> grind [propInside]

/-- The expected state is that of the code. -/
def propPc : Pc V → APc V
  | .idle => .idle
  | .want op => .waiting op
  | .locked op => .waiting op
  | .put k v => .waiting (.set k v)
  | .access op => .waiting op
  | .unlock r => .done r
  | .leave r => .done r

structure PropRel (s : State V) (a : Atomic V) : Prop where
  table : ∀ k, a.table k = entry s.map k
  pc : ∀ i, a.pc i = propPc (s.pc i)

theorem propRel_step {s t : State V} {l : Label V} {a : Atomic V} (hi : PropInv s) (hr : PropRel s a) (hs : Step V s l t) :
    ∃ ls b, Steps (AStep V) a ls b ∧ ls.filterMap ALabel.event = l.event.toList ∧ PropRel t b := by
  have stutter : l.event = none → (∀ k, entry t.map k = entry s.map k) → (∀ i, propPc (t.pc i) = propPc (s.pc i)) →
      ∃ ls b, Steps (AStep V) a ls b ∧ ls.filterMap ALabel.event = l.event.toList ∧ PropRel t b :=
    fun h1 h2 h3 => ⟨[], a, .nil _, by rw [h1]; rfl, fun k => by rw [hr.table, h2], fun i => by rw [hr.pc, h3]⟩
  have act : ∀ i op, l.event = none → propPc (s.pc i) = .waiting op → (∀ k, entry t.map k = op.apply (entry s.map) k) →
      (∀ j, propPc (t.pc j) = if j = i then .done (op.result (entry s.map)) else propPc (s.pc j)) →
      ∃ ls b, Steps (AStep V) a ls b ∧ ls.filterMap ALabel.event = l.event.toList ∧ PropRel t b := by
    intro i op h1 h2 h3 h4
    have et : a.table = entry s.map := funext hr.table
    refine ⟨[.act i], _, .cons (.act a i op (by rw [hr.pc, h2])) (.nil _), by rw [h1]; rfl, fun k => ?_, fun j => ?_⟩
    · rw [h3, et]
    · rw [h4, et]
      dsimp only
      rw [hr.pc]
  cases hs with
  | call i op h =>
    refine ⟨[.call i op], _, .cons (.call a i op (by rw [hr.pc, h]; rfl)) (.nil _), rfl, hr.table, fun j => ?_⟩
    simp only [Property.set, hr.pc]
    split <;> rfl
  | ret i r h =>
    refine ⟨[.ret i r], _, .cons (.ret a i r (by rw [hr.pc, h]; rfl)) (.nil _), rfl, hr.table, fun j => ?_⟩
    simp only [Property.set, hr.pc]
    split <;> rfl
  | setDone i k v m h hm =>
    refine act i (.set k v) rfl (by rw [h]; rfl) (fun k' => ?_) (fun j => ?_)
    · rw [hm]; rfl
    · simp only [Property.set]; split <;> rfl
  | getDone i k h =>
    refine act i (.get k) rfl (by rw [h]; rfl) (fun k' => rfl) (fun j => ?_)
    simp only [Property.set]; split <;> rfl
  | removeDone i k h =>
    refine act i (.remove k) rfl (by rw [h]; rfl) (fun k' => ?_) (fun j => ?_)
    · cases hm : s.map <;> simp [entry, Op.apply]
    · simp only [Property.set]; split <;> rfl
  | make i k v h hm =>
    refine stutter rfl (fun k' => by rw [hm]; rfl) (fun j => ?_)
    simp only [Property.set]; split
    · rename_i e; rw [e, h]; rfl
    · rfl
  | setNil i k v h hm => exact absurd hm (hi.map i k v (.inr h))
  | clash i j a b hne h1 h2 =>
    have e1 := (hi.lock i).1 (by rw [h1]; rfl)
    have e2 := (hi.lock j).1 (by rw [h2]; rfl)
    rw [e1] at e2
    exact absurd (Option.some.inj e2) hne
  | _ =>
    rename_i h _
    refine stutter rfl (fun k' => rfl) (fun j => ?_)
    simp only [Property.set]; split
    · rename_i e; rw [e]; simp [*, propPc]
    · rfl

/-- **C83.** In every execution, with any number of goroutines: the calls and returns are those of a table of keys and values on which each call takes effect at one instant between its beginning and its
return (so `GetProperty` returns the value set last, or an error if there is none or it was removed). -/
theorem C83_linearizable (t : State V) (ls : List (Label V)) (h : Steps (Step V) {} ls t) :
    ∃ ls' a, Steps (AStep V) {} ls' a ∧ ls'.filterMap ALabel.event = ls.filterMap Label.event := by
  have := h.invariant_trace (P := fun ls s => PropInv s ∧ ∃ ls' a, Steps (AStep V) {} ls' a ∧ ls'.filterMap ALabel.event = ls.filterMap Label.event ∧ PropRel s a)
    (by
      intro ls s l t ⟨hi, ls', a, h1, h2, h3⟩ hs
      obtain ⟨ls2, b, k1, k2, k3⟩ := propRel_step hi h3 hs
      refine ⟨propInv_step hi hs, ls' ++ ls2, b, h1.append k1, ?_, k3⟩
      rw [List.filterMap_append, List.filterMap_append, h2, k2]
      cases he : l.event <;> simp [he])
    ⟨⟨fun i => by simp [propInside], fun i k v h => by rcases h with h | h <;> cases h⟩, [], {}, .nil _, rfl, fun k => rfl, fun i => rfl⟩
  obtain ⟨_, ls', a, h1, h2, _⟩ := this
  exact ⟨ls', a, h1, h2⟩

theorem propInv {t : State V} {ls : List (Label V)} (h : Steps (Step V) {} ls t) : PropInv t :=
  h.invariant (fun _ _ _ hp hs => propInv_step hp hs) ⟨fun i => by simp [propInside], fun i k v h => by rcases h with h | h <;> cases h⟩

/-- **C83**: no schedule makes two goroutines use the Go map at the same time or write to the nil map, so the process does not end. -/
theorem C83_never_fatal (t : State V) (ls : List (Label V)) (h : Steps (Step V) {} ls t) : .fatal ∉ ls := by
  have := h.invariant_trace (P := fun ls s => PropInv s ∧ .fatal ∉ ls)
    (by
      intro ls s l t ⟨hi, hn⟩ hs
      refine ⟨propInv_step hi hs, fun hm => ?_⟩
      rcases List.mem_append.1 hm with hm | hm
      · exact hn hm
      · rw [List.mem_singleton] at hm
        subst hm
        cases hs with
        | setNil i k v h hm => exact hi.map i k v (.inr h) hm
        | clash i j a b hne h1 h2 =>
          have e1 := (hi.lock i).1 (by rw [h1]; rfl)
          have e2 := (hi.lock j).1 (by rw [h2]; rfl)
          rw [e1] at e2
          exact hne (Option.some.inj e2))
    ⟨⟨fun i => by simp [propInside], fun i k v h => by rcases h with h | h <;> cases h⟩, nofun⟩
  exact this.2

/-- The steps of goroutine `i` within a call. -/
def propOwn (i : Nat) : Label V → Prop
  | .inside j => j = i
  | .ret j _ => j = i
  | _ => False

def propRank : Pc V → Nat
  | .idle => 0
  | .leave _ => 1
  | .unlock _ => 2
  | .access _ => 3
  | .put _ _ => 4
  | .locked _ => 5
  | .want _ => 6

theorem propRank_step {s t : State V} {l : Label V} (hs : Step V s l t) (i : Nat) (hi : s.pc i ≠ .idle) :
    propRank (t.pc i) ≤ propRank (s.pc i) ∧ (propOwn i l → propRank (t.pc i) < propRank (s.pc i)) := by
  cases hs <;> (try simp only [Property.set, propOwn]) <;> grind [propRank]

theorem propOwn_enabled {s : State V} (hi : PropInv s) (i : Nat) (h1 : s.pc i ≠ .idle) (h2 : ∀ op, s.pc i = .want op → s.lock = none) : Enabled (Step V) (propOwn i) s := by
  cases h : s.pc i with
  | idle => exact absurd h h1
  | want op => exact ⟨_, _, by exact rfl, .lock s i op h (h2 op h)⟩
  | locked op =>
    cases op with
    | set k v =>
      by_cases hm : s.map = none
      · exact ⟨_, _, by exact rfl, .make s i k v h hm⟩
      · exact ⟨_, _, by exact rfl, .exists s i k v h hm⟩
    | get k => exact ⟨_, _, by exact rfl, .get s i k h⟩
    | remove k => exact ⟨_, _, by exact rfl, .remove s i k h⟩
  | put k v => exact ⟨_, _, by exact rfl, .put s i k v h⟩
  | access op =>
    cases op with
    | set k v =>
      cases hm : s.map with
      | none => exact absurd hm (hi.map i k v (.inr h))
      | some m => exact ⟨_, _, by exact rfl, .setDone s i k v m h hm⟩
    | get k => exact ⟨_, _, by exact rfl, .getDone s i k h⟩
    | remove k => exact ⟨_, _, by exact rfl, .removeDone s i k h⟩
  | unlock r => exact ⟨_, _, by exact rfl, .unlock s i r h⟩
  | leave r => exact ⟨_, _, by exact rfl, .ret s i r h⟩

theorem prop_idle {s t : State V} {l : Label V} (hs : Step V s l t) (i : Nat) (h1 : s.pc i ≠ .idle) (h2 : t.pc i = .idle) : ∃ r, l = .ret i r := by
  cases hs
  case ret j r hj =>
    simp only [Property.set] at h2
    by_cases e : i = j
    · exact ⟨r, by rw [e]⟩
    · rw [if_neg e] at h2; exact absurd h2 h1
  all_goals (try simp only [Property.set] at h2) <;> grind

/-- **C83**: every call returns, if no goroutine that can go on again and again (in particular when the lock is free) is passed over for ever. -/
theorem C83_returns (e : Exec (Step V)) (h0 : e.run 0 = {}) (hf : ∀ i, e.StrongFair (propOwn i)) (n i : Nat) (op : Op V) (ha : e.act n = some (.call i op)) :
    ∃ k r, n < k ∧ e.act k = some (.ret i r) := by
  have hinv : ∀ m, PropInv (e.run m) := fun m => propInv (h0 ▸ e.steps m)
  have hw : ∀ i, e.WeakFair (propOwn i) := fun i n hn => hf i n fun m hm => ⟨m, Nat.le_refl _, hn m hm⟩
  have hstart : (e.run (n + 1)).pc i ≠ .idle := by
    have hn := e.next n
    rw [ha] at hn
    generalize e.run (n + 1) = t at hn
    cases hn
    simp [Property.set]
  -- a holder of the lock gives it back
  have hfree : ∀ j m, (e.run m).lock = some j → ∃ k, m ≤ k ∧ (e.run k).lock = none := by
    intro j m hj
    refine e.leads_weak_dec (hw j) (P := fun s => PropInv s ∧ s.lock = some j) (Q := fun s => s.lock = none) (fun s => propRank (s.pc j)) ?_ ?_ ?_ ⟨hinv m, hj⟩
    · intro s l t ⟨hi, hl⟩ hs
      have hne : s.pc j ≠ .idle := fun h => by have := (hi.lock j).2 hl; rw [h] at this; cases this
      have := propRank_step hs j hne
      have hi' := propInv_step hi hs
      have : t.lock = some j ∨ t.lock = none := by
        have := hi.lock
        cases hs <;> grind [propInside]
      grind
    · intro s l t ⟨hi, hl⟩ hs hA
      have hne : s.pc j ≠ .idle := fun h => by have := (hi.lock j).2 hl; rw [h] at this; cases this
      have := propRank_step hs j hne
      have hi' := propInv_step hi hs
      have : t.lock = some j ∨ t.lock = none := by
        have := hi.lock
        cases hs <;> grind [propInside]
      grind
    · intro s ⟨hi, hl⟩
      have := (hi.lock j).2 hl
      exact propOwn_enabled hi j (fun h => by rw [h] at this; cases this) (fun op h => by rw [h] at this; cases this)
  have hown : ∀ m, (e.run m).pc i ≠ .idle → ∃ k, m ≤ k ∧ (e.run k).pc i = .idle := by
    suffices H : ∀ v m, (e.run m).pc i ≠ .idle → propRank ((e.run m).pc i) ≤ v → ∃ k, m ≤ k ∧ (e.run k).pc i = .idle from fun m hm => H _ m hm (Nat.le_refl _)
    intro v
    induction v with
    | zero => intro m hm hv; cases h : (e.run m).pc i <;> rw [h] at hv <;> simp_all [propRank]
    | succ v ih =>
      intro m hm hv
      obtain ⟨k, hk, hq⟩ := e.leads_strong (hf i) (P := fun s => s.pc i ≠ .idle ∧ propRank (s.pc i) ≤ v + 1) (Q := fun s => s.pc i = .idle ∨ propRank (s.pc i) ≤ v) (n := m) (by
          intro s l t ⟨h1, h2⟩ hs
          have := propRank_step hs i h1
          grind) (by
          intro s l t ⟨h1, h2⟩ hs hA
          have := propRank_step hs i h1
          grind) (by
          intro n hn
          cases hl : (e.run n).lock with
          | none => exact ⟨n, Nat.le_refl _, propOwn_enabled (hinv n) i (hn n (Nat.le_refl _)).1 (fun _ _ => hl)⟩
          | some j =>
            obtain ⟨k, hk, hkl⟩ := hfree j n hl
            exact ⟨k, hk, propOwn_enabled (hinv k) i (hn k hk).1 (fun _ _ => hkl)⟩) ⟨hm, hv⟩
      by_cases hi : (e.run k).pc i = .idle
      · exact ⟨k, hk, hi⟩
      · rcases hq with hq | hq
        · exact absurd hq hi
        · obtain ⟨k', hk', h⟩ := ih k hi hq
          exact ⟨k', by omega, h⟩
  obtain ⟨k, hk, hidle⟩ := hown (n + 1) hstart
  apply Classical.byContradiction
  intro hno
  have : ∀ d, (e.run (n + 1 + d)).pc i ≠ .idle := by
    intro d
    induction d with
    | zero => exact hstart
    | succ d ih =>
      intro h
      have hn := e.next (n + 1 + d)
      cases hact : e.act (n + 1 + d) with
      | none => rw [hact] at hn; exact ih (by rw [← hn]; exact h)
      | some l =>
        rw [hact] at hn
        obtain ⟨r, hr⟩ := prop_idle hn i ih h
        exact hno ⟨n + 1 + d, r, by omega, by rw [hact, hr]⟩
  have := this (k - (n + 1))
  rw [show n + 1 + (k - (n + 1)) = k by omega] at this
  exact this hidle

/-- Two goroutines at the same time: one sets, the other, waiting for the lock, gets. -/
theorem prop_example : ∃ (ls : List (Label Nat)) (t : State Nat), Steps (Step Nat) {} ls t ∧ (∀ i, t.pc i = .idle) ∧ ls[1]? = some (.call 1 (.get "a")) ∧ .ret 1 (.got (some 7)) ∈ ls := by
  refine ⟨[.call 0 (.set "a" 7), .call 1 (.get "a"), .inside 0, .inside 0, .inside 0, .inside 0, .inside 0, .inside 1, .inside 1, .inside 1, .inside 1, .ret 1 (.got (some 7)), .ret 0 .unit], _,
    .cons (.call _ 0 (.set "a" 7) rfl) (.cons (.call _ 1 (.get "a") rfl) (.cons (.lock _ 0 (.set "a" 7) rfl rfl) (.cons (.make _ 0 "a" 7 rfl rfl) (.cons (.put _ 0 "a" 7 rfl)
    (.cons (.setDone _ 0 "a" 7 _ rfl rfl) (.cons (.unlock _ 0 .unit rfl) (.cons (.lock _ 1 (.get "a") rfl rfl) (.cons (.get _ 1 "a" rfl) (.cons (.getDone _ 1 "a" rfl)
    (.cons (.unlock _ 1 (.got (some 7)) rfl) (.cons (.ret _ 1 (.got (some 7)) rfl) (.cons (.ret _ 0 .unit rfl) (.nil _))))))))))))), fun i => ?_, rfl, ?_⟩
  · simp only [Property.set]; grind
  · simp

example : ∃ (ls : List (Label Nat)) (t : State Nat), Steps (Step Nat) {} ls t ∧ .fatal ∉ ls ∧ .ret 1 (.got (some 7)) ∈ ls := by
  obtain ⟨ls, t, h, _, _, h2⟩ := prop_example
  exact ⟨ls, t, h, C83_never_fatal t ls h, h2⟩

example : ∃ e : Exec (Step Nat), e.run 0 = {} ∧ (∀ i, e.StrongFair (propOwn i)) ∧ e.act 1 = some (.call 1 (.get "a")) := by
  obtain ⟨ls, t, h, h1, h2, _⟩ := prop_example
  obtain ⟨e, e1, e2, _, e3⟩ := Exec.ofSteps h
  refine ⟨e, e1, fun i => Exec.strongFair_of_end e3 ?_, by rw [e2, h2]⟩
  intro ⟨l, u, hA, hs⟩
  have := h1
  cases hs <;> grind [propOwn]

end Zinx.Props
