import Verif.Model.PoolCycle

/-! # C118: starting a server again -/

namespace Zinx.Props
open Zinx Zinx.PoolCycle

/-- What is seen of connection `c`: `(true, k)` when a handler begins with its message `k`, `(false, k)` when it is through with it. -/
def handledOf (c : Nat) (ls : List PoolCycle.Label) : List (Bool × Nat) := ls.filterMap fun
  | .begin _ _ c' k => if c' = c then some (true, k) else none
  | .finish _ _ c' k => if c' = c then some (false, k) else none
  | _ => none

/-- The messages are handled in the order in which they were read, one at a time: begin 0, end 0, begin 1, end 1, … -/
def OneByOne (evs : List (Bool × Nat)) : Prop := ∀ i x, evs[i]? = some x → x = (i % 2 == 0, i / 2)

/-- Message `k` of connection `c` is in queue `g` of place `w` or with its worker. -/
def PoolHeld (s : PoolCycle.State) (w g c k : Nat) : Prop := (c, k) ∈ s.queue w g ∨ s.worker w g = .busy c k

/-- Messages of connection `c` are in two queues, or with their workers. -/
def SplitOver (wid : Nat → Nat) (s : PoolCycle.State) (c : Nat) : Prop := ∃ g g' k k', g ≠ g' ∧ PoolHeld s (wid c) g c k ∧ PoolHeld s (wid c) g' c k'

/-- Which queues and workers there are. -/
structure PoolShape (n : Nat) (s : PoolCycle.State) : Prop where
  present : ∀ w g, s.worker w g ≠ .absent ↔ w < n ∧ 1 ≤ g ∧ g ≤ s.cur w
  outside : s.loop = none → ∀ w, w < n → s.cur w = s.starts
  bound : ∀ i, s.loop = some i → i ≤ n
  before : ∀ i w, s.loop = some i → w < i → s.cur w = s.starts + 1
  after : ∀ i w, s.loop = some i → i ≤ w → w < n → s.cur w = s.starts
  big : ∀ w, n ≤ w → s.cur w = 0

theorem poolShape_step {n cap : Nat} {wid : Nat → Nat} {s t : PoolCycle.State} {l : PoolCycle.Label} (h : PoolShape n s) (hs : PoolCycle.Step n cap wid s l t) : PoolShape n t := by
  obtain ⟨a1, a2, a3, a4, a5, a6⟩ := h
  cases hs with
  | make i h hi =>
    refine ⟨by intro w g; have := a1 w g; simp only [upd, upd2]; grind, by simp, by intro j hj; simp at hj; omega, ?_, ?_, ?_⟩
    · intro j w hj hw
      simp only [Option.some.injEq] at hj
      subst hj
      by_cases hwi : w = i
      · subst hwi; simp [upd, a5 w w h (Nat.le_refl w) hi]
      · simp [upd, hwi, a4 i w h (by omega)]
    · intro j w hj hw hn
      simp only [Option.some.injEq] at hj
      subst hj
      simp [upd, show w ≠ i by omega, a5 i w h (by omega) hn]
    · intro w hw
      simp [upd, show w ≠ i by omega, a6 w hw]
  | call h => exact ⟨a1, by simp, by simp, by intro i w hi hw; simp at hi; omega, fun i w hi hw hn => a2 h w hn, a6⟩
  | ret h => exact ⟨a1, fun _ w hw => a4 n w h hw, by simp, by simp, by simp, a6⟩
  | begin w g c k rest h1 h2 => exact ⟨by intro w g; have := a1 w g; simp only [upd2]; grind, a2, a3, a4, a5, a6⟩
  | finish w g c k h1 => exact ⟨by intro w g; have := a1 w g; simp only [upd2]; grind, a2, a3, a4, a5, a6⟩
  | _ => exact ⟨a1, a2, a3, a4, a5, a6⟩

theorem poolShape {n cap : Nat} {wid : Nat → Nat} {s : PoolCycle.State} {ls : List PoolCycle.Label} (h : Steps (PoolCycle.Step n cap wid) {} ls s) : PoolShape n s :=
  h.invariant (P := PoolShape n) (fun _ _ _ => poolShape_step) ⟨by intro w g; simp; omega, by simp, by simp, by simp, by simp, by simp⟩

/-- What the readers have looked up. -/
structure PoolHands (wid : Nat → Nat) (n : Nat) (s : PoolCycle.State) : Prop where
  hand : ∀ c g, s.hand c = some g → g ≤ s.cur (wid c) ∧ s.next c < s.read c
  handed : ∀ c, s.next c ≤ s.read c
  some_start : ∀ c, s.next c < s.read c → 0 < s.starts
  hand_pos : ∀ c g, wid c < n → s.hand c = some g → 0 < g

theorem poolHands_step {n cap : Nat} {wid : Nat → Nat} {s t : PoolCycle.State} {l : PoolCycle.Label} (hi : PoolShape n s) (h : PoolHands wid n s) (hs : PoolCycle.Step n cap wid s l t) : PoolHands wid n t := by
  obtain ⟨a1, a2, a3, a4⟩ := h
  have hpos : ∀ c, s.next c < s.read c → wid c < n → 0 < s.cur (wid c) := by
    intro c h1 h2
    have h3 := a3 c h1
    cases hl : s.loop with
    | none => rw [hi.outside hl _ h2]; exact h3
    | some i =>
      by_cases h4 : wid c < i
      · rw [hi.before i _ hl h4]; omega
      · rw [hi.after i _ hl (by omega) h2]; exact h3
  cases hs with
  | make i h hi =>
    refine ⟨fun c g hc => ⟨?_, (a1 c g hc).2⟩, a2, a3, a4⟩
    have := (a1 c g hc).1
    simp only [upd]
    split
    · simp_all; omega
    · exact this
  | ret h => exact ⟨a1, a2, fun c hc => by simp, a4⟩
  | read c m h0 h => constructor <;> (intros; simp only [upd] at *; grind)
  | pick c h hh =>
    have := hpos c h
    constructor <;> (intros; simp only [upd] at *; grind)
  | put c g h hg hr => constructor <;> (intros; simp only [upd] at *; grind)
  | _ => exact ⟨a1, a2, a3, a4⟩

/-- Where the messages are. -/
structure PoolItems (wid : Nat → Nat) (s : PoolCycle.State) : Prop where
  home : ∀ w g c k, PoolHeld s w g c k → w = wid c ∧ k < s.next c ∧ 1 ≤ g ∧ g ≤ s.cur w
  sorted : ∀ w g, (s.queue w g).Pairwise fun a b => a.1 = b.1 → a.2 < b.2
  first : ∀ w g c k k', s.worker w g = .busy c k → (c, k') ∈ s.queue w g → k < k'
  across : ∀ w g g' c k k', g < g' → PoolHeld s w g c k → PoolHeld s w g' c k' → k < k'
  last : ∀ c h g k, s.hand c = some h → PoolHeld s (wid c) g c k → g ≤ h

/-- What a step does to the messages under way. -/
theorem held_step {n cap : Nat} {wid : Nat → Nat} {s t : PoolCycle.State} {l : PoolCycle.Label} (hj : PoolShape n s) (h : PoolItems wid s) (hs : PoolCycle.Step n cap wid s l t) (w g c k : Nat) :
    PoolHeld t w g c k ↔ match l with
      | .put c' k' g' => PoolHeld s w g c k ∨ w = wid c' ∧ g = g' ∧ c = c' ∧ k = k'
      | .finish w' g' c' k' => PoolHeld s w g c k ∧ ¬ (w = w' ∧ g = g' ∧ c = c' ∧ k = k')
      | _ => PoolHeld s w g c k := by
  cases hs with
  | make i h hi =>
    have := hj.present i (s.cur i + 1)
    simp only [PoolHeld, upd2]
    by_cases e : w = i ∧ g = s.cur i + 1
    · obtain ⟨rfl, rfl⟩ := e
      have : s.worker w (s.cur w + 1) = .absent := by
        apply Classical.byContradiction
        intro h
        have := (this.1 h).2.2
        omega
      simp [this]
    · simp [e]
  | put c' g' h hg hr =>
    simp only [PoolHeld, upd2]
    by_cases e : w = wid c' ∧ g = g'
    · obtain ⟨rfl, rfl⟩ := e
      simp
      grind
    · simp [e]
      grind
  | begin w' g' c' k' rest h1 h2 =>
    simp only [PoolHeld, upd2]
    by_cases e : w = w' ∧ g = g'
    · obtain ⟨rfl, rfl⟩ := e
      simp [h1, h2]
      grind
    · simp [e]
  | finish w' g' c' k' h1 =>
    have := h.first w' g' c' k'
    simp only [PoolHeld, upd2]
    by_cases e : w = w' ∧ g = g'
    · obtain ⟨rfl, rfl⟩ := e
      simp [h1]
      grind
    · simp [e]
      grind
  | _ => exact Iff.rfl

theorem poolItems_step {n cap : Nat} {wid : Nat → Nat} {s t : PoolCycle.State} {l : PoolCycle.Label} (hi : PoolHands wid n s) (hj : PoolShape n s) (h : PoolItems wid s) (hs : PoolCycle.Step n cap wid s l t) : PoolItems wid t := by
  have hh := held_step hj h hs
  obtain ⟨a1, a2, a3, a4, a5⟩ := h
  have b1 := hi.hand
  clear hi
  cases hs with
  | call h | ret h | read c m h0 h => exact ⟨a1, a2, a3, a4, a5⟩
  | make i h hi =>
    simp only at hh
    refine ⟨?_, a2, ?_, ?_, ?_⟩
    · intro w g c k hk
      obtain ⟨h1, h2, h3, h4⟩ := a1 w g c k ((hh w g c k).1 hk)
      refine ⟨h1, h2, h3, ?_⟩
      simp only [upd]
      split
      · simp_all; omega
      · exact h4
    · intro w g c k k' hb
      refine a3 w g c k k' ?_
      simp only [upd2] at hb
      split at hb
      · cases hb
      · exact hb
    · intro w g g' c k k' hg h1 h2
      exact a4 w g g' c k k' hg ((hh _ _ _ _).1 h1) ((hh _ _ _ _).1 h2)
    · intro c h g k h1 h2
      exact a5 c h g k h1 ((hh _ _ _ _).1 h2)
  | pick c h hx =>
    refine ⟨a1, a2, a3, a4, ?_⟩
    intro c' h' g k h1 h2
    simp only [upd] at h1
    split at h1
    · rename_i e
      subst e
      cases h1
      exact (a1 _ _ _ _ h2).2.2.2
    · exact a5 c' h' g k h1 h2
  | put c g h hg hr =>
    simp only at hh
    have b2 := b1 c g h
    refine ⟨?_, ?_, ?_, ?_, ?_⟩
    · intro w' g' c' k' hk
      rcases (hh _ _ _ _).1 hk with h1 | ⟨rfl, rfl, rfl, rfl⟩
      · obtain ⟨h1, h2, h3, h4⟩ := a1 _ _ _ _ h1
        refine ⟨h1, ?_, h3, h4⟩
        simp only [upd]
        split
        · simp_all; omega
        · exact h2
      · exact ⟨rfl, by simp [upd], hg, b2.1⟩
    · intro w' g'
      simp only [upd2]
      split
      · rw [List.pairwise_append]
        refine ⟨a2 _ _, by simp, ?_⟩
        rintro ⟨c1, k1⟩ h1 ⟨c2, k2⟩ h2 he
        simp at h2 he
        obtain ⟨rfl, rfl⟩ := h2
        subst he
        exact (a1 _ _ _ _ (.inl h1)).2.1
      · exact a2 w' g'
    · intro w' g' c' k1 k2 h1 h2
      simp only [upd2] at h1 h2
      split at h2
      · rename_i e
        simp at h2
        rcases h2 with h2 | ⟨rfl, rfl⟩
        · obtain ⟨rfl, rfl⟩ := e
          exact a3 _ _ _ _ _ h1 h2
        · exact (a1 _ _ _ _ (.inr h1)).2.1
      · exact a3 _ _ _ _ _ h1 h2
    · intro w' g1 g2 c' k1 k2 hlt h1 h2
      rcases (hh _ _ _ _).1 h1 with h1 | ⟨rfl, rfl, rfl, rfl⟩ <;> rcases (hh _ _ _ _).1 h2 with h2 | ⟨e1, e2, e3, e4⟩
      · exact a4 _ _ _ _ _ _ hlt h1 h2
      · subst e3 e4
        exact (a1 _ _ _ _ (by assumption)).2.1
      · have := a5 _ _ _ _ h h2
        omega
      · omega
    · intro c' h' g' k' h1 h2
      simp only [upd] at h1
      split at h1
      · cases h1
      · rename_i e
        rcases (hh _ _ _ _).1 h2 with h2 | ⟨e1, e2, e3, e4⟩
        · exact a5 _ _ _ _ h1 h2
        · exact absurd e3 e
  | begin w g c k rest h1 h2 =>
    simp only at hh
    refine ⟨fun w' g' c' k' hk => a1 _ _ _ _ ((hh _ _ _ _).1 hk), ?_, ?_, fun w' g1 g2 c' k1 k2 hg x1 x2 => a4 _ _ _ _ _ _ hg ((hh _ _ _ _).1 x1) ((hh _ _ _ _).1 x2), fun c' h' g' k' x1 x2 => a5 _ _ _ _ x1 ((hh _ _ _ _).1 x2)⟩
    · intro w' g'
      simp only [upd2]
      split
      · have := a2 w g
        rw [h2] at this
        exact this.tail
      · exact a2 w' g'
    · intro w' g' c' k1 k2 x1 x2
      simp only [upd2] at x1 x2
      split at x1
      · rename_i e
        rw [if_pos e] at x2
        cases x1
        have := a2 w g
        rw [h2] at this
        exact (List.pairwise_cons.1 this).1 _ x2 rfl
      · rename_i e
        rw [if_neg e] at x2
        exact a3 _ _ _ _ _ x1 x2
  | finish w g c k h1 =>
    simp only at hh
    refine ⟨fun w' g' c' k' hk => a1 _ _ _ _ ((hh _ _ _ _).1 hk).1, a2, ?_, fun w' g1 g2 c' k1 k2 hg x1 x2 => a4 _ _ _ _ _ _ hg ((hh _ _ _ _).1 x1).1 ((hh _ _ _ _).1 x2).1, fun c' h' g' k' x1 x2 => a5 _ _ _ _ x1 ((hh _ _ _ _).1 x2).1⟩
    intro w' g' c' k1 k2 x1 x2
    simp only [upd2] at x1
    split at x1
    · cases x1
    · exact a3 _ _ _ _ _ x1 x2

/-- All of it. -/
structure PoolInv (n : Nat) (wid : Nat → Nat) (s : PoolCycle.State) : Prop extends PoolShape n s, PoolHands wid n s, PoolItems wid s

theorem poolInv_step {n cap : Nat} {wid : Nat → Nat} {s t : PoolCycle.State} {l : PoolCycle.Label} (h : PoolInv n wid s) (hs : PoolCycle.Step n cap wid s l t) : PoolInv n wid t :=
  ⟨poolShape_step h.toPoolShape hs, poolHands_step h.toPoolShape h.toPoolHands hs, poolItems_step h.toPoolHands h.toPoolShape h.toPoolItems hs⟩

theorem poolInv {n cap : Nat} {wid : Nat → Nat} {s : PoolCycle.State} {ls : List PoolCycle.Label} (h : Steps (PoolCycle.Step n cap wid) {} ls s) : PoolInv n wid s :=
  h.invariant (P := PoolInv n wid) (fun _ _ _ => poolInv_step) ⟨poolShape (.nil _) (cap := cap) (wid := wid), by constructor <;> simp, by constructor <;> simp [PoolHeld]⟩

theorem handledOf_snoc (c : Nat) (ls : List PoolCycle.Label) (l : PoolCycle.Label) : handledOf c (ls ++ [l]) = handledOf c ls ++ handledOf c [l] := by simp [handledOf]

theorem oneByOne_init {a b : List (Bool × Nat)} (h : OneByOne (a ++ b)) : OneByOne a := by
  intro i x hx
  exact h i x (by rw [List.getElem?_append_left]; exact hx; exact (List.getElem?_eq_some_iff.1 hx).1)

theorem oneByOne_snoc {a : List (Bool × Nat)} {x : Bool × Nat} : OneByOne (a ++ [x]) ↔ OneByOne a ∧ x = (a.length % 2 == 0, a.length / 2) := by
  constructor
  · intro h
    exact ⟨oneByOne_init h, h a.length x (by simp)⟩
  · rintro ⟨h1, h2⟩ i y hy
    by_cases hi : i < a.length
    · exact h1 i y (by rwa [List.getElem?_append_left hi] at hy)
    · have : i = a.length := by
        have := (List.getElem?_eq_some_iff.1 hy).1
        simp at this
        omega
      subst this
      simp at hy
      rw [← hy, h2]

/-- As long as everything is in order: the messages not handled are under way, and at most the first of them is with a worker. -/
structure PoolOrder (wid : Nat → Nat) (c : Nat) (N : Nat) (s : PoolCycle.State) : Prop where
  le : N / 2 ≤ s.next c
  under : ∀ k, N / 2 ≤ k ∧ k < s.next c ↔ ∃ g, PoolHeld s (wid c) g c k
  free : N % 2 = 0 → ∀ g k, s.worker (wid c) g ≠ .busy c k
  busy : ∀ g k, s.worker (wid c) g = .busy c k → k = N / 2
  open_ : N % 2 = 1 → ∃ g, s.worker (wid c) g = .busy c (N / 2)

theorem poolOrder_step {n cap : Nat} {wid : Nat → Nat} {s t : PoolCycle.State} {l : PoolCycle.Label} {c : Nat} {evs : List (Bool × Nat)} (hi : PoolInv n wid s) (hp : PoolOrder wid c evs.length s)
    (hs : PoolCycle.Step n cap wid s l t) (ho : OneByOne (evs ++ handledOf c [l])) : PoolOrder wid c (evs ++ handledOf c [l]).length t := by
  have hh := held_step hi.toPoolShape hi.toPoolItems hs
  obtain ⟨a0, a1, a2, a3, a4⟩ := hp
  have c1 := hi.home
  have c4 := hi.across
  have c3 := hi.first
  cases hs with
  | call h | ret h | read c' m h0 h | pick c' h hx => simp [handledOf]; exact ⟨a0, a1, a2, a3, a4⟩
  | make i h hl =>
    simp [handledOf]
    simp only at hh
    have hsame : ∀ g k, upd2 s.worker i (s.cur i + 1) .idle (wid c) g = .busy c k ↔ s.worker (wid c) g = .busy c k := by
      intro g k
      simp only [upd2]
      split
      · rename_i e
        have := hi.present (wid c) g
        have : s.worker (wid c) g = .absent := by
          apply Classical.byContradiction
          intro h
          have := (this.1 h).2.2
          rw [e.1] at this
          omega
        simp [this]
      · exact Iff.rfl
    refine ⟨a0, fun k => by simp only [hh]; exact a1 k, fun h g k => ?_, fun g k h => a3 g k ((hsame g k).1 h), fun h => ?_⟩
    · intro h2
      exact a2 h g k ((hsame g k).1 h2)
    · obtain ⟨g, hg⟩ := a4 h
      exact ⟨g, (hsame g _).2 hg⟩
  | put c' g h hg hr =>
    simp [handledOf]
    simp only at hh
    refine ⟨by simp only [upd]; split; (simp_all; omega); exact a0, fun k => ?_, a2, a3, a4⟩
    simp only [hh, upd]
    by_cases hc : c' = c
    · subst hc
      simp only [if_pos]
      constructor
      · intro ⟨h1, h2⟩
        by_cases hk : k = s.next c'
        · exact ⟨g, .inr ⟨trivial, rfl, trivial, hk⟩⟩
        · obtain ⟨g', hg'⟩ := (a1 k).1 ⟨h1, by omega⟩
          exact ⟨g', .inl hg'⟩
      · rintro ⟨g', hg' | ⟨_, _, _, rfl⟩⟩
        · have := (a1 k).2 ⟨g', hg'⟩
          omega
        · omega
    · have hc' : c ≠ c' := fun e => hc e.symm
      simp [hc', a1 k]
  | begin w g c' k rest h1 h2 =>
    simp only at hh
    by_cases hc : c' = c
    · subst hc
      simp [handledOf, oneByOne_snoc] at ho
      simp [handledOf]
      obtain ⟨hw, hn, -⟩ := c1 w g c' k (by simp [PoolHeld, h2])
      subst hw
      refine ⟨by simp only; omega, fun j => ?_, ?_, ?_, ?_⟩
      · simp only [hh]
        rw [← a1]
        have : (evs.length + 1) / 2 = evs.length / 2 := by omega
        rw [this]
      · omega
      · intro g' k' hb
        simp only [upd2] at hb
        split at hb
        · cases hb; omega
        · exact absurd hb (a2 ho.2.1 g' k')
      · intro _
        exact ⟨g, by simp [upd2]; omega⟩
    · simp [handledOf, hc] at ho ⊢
      have hsame : ∀ g' k', upd2 s.worker w g (.busy c' k) (wid c) g' = .busy c k' ↔ s.worker (wid c) g' = .busy c k' := by
        intro g' k'
        simp only [upd2]
        split
        · rename_i e
          rw [e.1, e.2, h1]
          simp [hc]
        · exact Iff.rfl
      refine ⟨a0, fun k => by simp only [hh]; exact a1 k, fun h g k h2 => a2 h g k ((hsame g k).1 h2), fun g k h => a3 g k ((hsame g k).1 h), fun h => ?_⟩
      obtain ⟨g, hg⟩ := a4 h
      exact ⟨g, (hsame g _).2 hg⟩
  | finish w g c' k h1 =>
    simp only at hh
    by_cases hc : c' = c
    · subst hc
      simp [handledOf, oneByOne_snoc] at ho
      simp [handledOf]
      obtain ⟨hw, hn, -⟩ := c1 w g c' k (by simp [PoolHeld, h1])
      subst hw
      have honly : ∀ g' k', s.worker (wid c') g' = .busy c' k' → g' = g := by
        intro g' k' hb
        have e1 := a3 _ _ h1
        have e2 := a3 _ _ hb
        apply Classical.byContradiction
        intro hne
        rcases Nat.lt_or_gt_of_ne hne with hlt | hlt
        · have := c4 _ _ _ _ _ _ hlt (.inr hb) (.inr h1)
          omega
        · have := c4 _ _ _ _ _ _ hlt (.inr h1) (.inr hb)
          omega
      refine ⟨by have := a3 _ _ h1; simp only; omega, fun j => ?_, ?_, ?_, ?_⟩
      · simp only [hh]
        have : (evs.length + 1) / 2 = evs.length / 2 + 1 := by omega
        rw [this]
        constructor
        · intro ⟨x1, x2⟩
          obtain ⟨g', hg'⟩ := (a1 j).1 ⟨by omega, x2⟩
          exact ⟨g', hg', by omega⟩
        · rintro ⟨g', hg', hne⟩
          have := (a1 j).2 ⟨g', hg'⟩
          refine ⟨?_, this.2⟩
          apply Classical.byContradiction
          intro hlt
          have hj : j = k := by omega
          subst hj
          apply hne
          refine ⟨trivial, ?_, trivial, rfl⟩
          apply Classical.byContradiction
          intro hg
          rcases Nat.lt_or_gt_of_ne hg with hlt | hlt
          · have := c4 _ _ _ _ _ _ hlt hg' (.inr h1)
            omega
          · have := c4 _ _ _ _ _ _ hlt (.inr h1) hg'
            omega
      · intro _ g' k' hb
        simp only [upd2] at hb
        split at hb
        · cases hb
        · rename_i e
          exact e ⟨trivial, honly _ _ hb⟩
      · intro g' k' hb
        simp only [upd2] at hb
        split at hb
        · cases hb
        · rename_i e
          exact absurd ⟨trivial, honly _ _ hb⟩ e
      · omega
    · simp [handledOf, hc] at ho ⊢
      have hsame : ∀ g' k', upd2 s.worker w g .idle (wid c) g' = .busy c k' ↔ s.worker (wid c) g' = .busy c k' := by
        intro g' k'
        simp only [upd2]
        split
        · rename_i e
          rw [e.1, e.2, h1]
          simp [hc]
        · exact Iff.rfl
      refine ⟨a0, fun k => ?_, fun h g k h2 => a2 h g k ((hsame g k).1 h2), fun g k h => a3 g k ((hsame g k).1 h), fun h => ?_⟩
      · simp only [hh]
        have hc' : c ≠ c' := fun e => hc e.symm
        simp [hc', a1 k]
      · obtain ⟨g, hg⟩ := a4 h
        exact ⟨g, (hsame g _).2 hg⟩

theorem poolOrder {n cap : Nat} {wid : Nat → Nat} {s : PoolCycle.State} {ls : List PoolCycle.Label} (h : Steps (PoolCycle.Step n cap wid) {} ls s) (c : Nat) (ho : OneByOne (handledOf c ls)) :
    PoolOrder wid c (handledOf c ls).length s := by
  have key : PoolInv n wid s ∧ (OneByOne (handledOf c ls) → PoolOrder wid c (handledOf c ls).length s) := by
    refine h.invariant_trace (P := fun ls s => PoolInv n wid s ∧ (OneByOne (handledOf c ls) → PoolOrder wid c (handledOf c ls).length s)) ?_ ⟨poolInv (cap := cap) (.nil _), fun _ => ?_⟩
    · rintro ls s l t ⟨hi, hp⟩ hs
      refine ⟨poolInv_step hi hs, fun ho => ?_⟩
      rw [handledOf_snoc] at ho ⊢
      exact poolOrder_step hi (hp (oneByOne_init ho)) hs ho
    · constructor <;> simp [handledOf, PoolHeld]
  exact key.2 ho

/-- As long as the messages of a connection are not split over two queues, the order is kept. -/
theorem order_keeps {n cap : Nat} {wid : Nat → Nat} {s t : PoolCycle.State} {l : PoolCycle.Label} {c : Nat} {evs : List (Bool × Nat)} (hi : PoolInv n wid s) (hp : PoolOrder wid c evs.length s) (hn : ¬ SplitOver wid s c)
    (ho : OneByOne evs) (hs : PoolCycle.Step n cap wid s l t) : OneByOne (evs ++ handledOf c [l]) := by
  cases hs with
  | begin w g c' k rest h1 h2 =>
    by_cases hc : c' = c
    · subst hc
      have hk : PoolHeld s w g c' k := by simp [PoolHeld, h2]
      obtain ⟨hw, hlt, -⟩ := hi.home w g c' k hk
      subst hw
      simp only [handledOf, List.filterMap_cons, List.filterMap_nil, if_pos, oneByOne_snoc]
      refine ⟨ho, ?_⟩
      have hev : evs.length % 2 = 0 := by
        apply Classical.byContradiction
        intro hodd
        obtain ⟨g', hg'⟩ := hp.open_ (by omega)
        refine hn ⟨g', g, _, k, ?_, .inr hg', hk⟩
        intro e
        rw [e, h1] at hg'
        cases hg'
      have hle := (hp.under k).2 ⟨g, hk⟩
      obtain ⟨g', hg'⟩ := (hp.under (evs.length / 2)).1 ⟨Nat.le_refl _, by omega⟩
      have hgg : g' = g := Classical.byContradiction fun e => hn ⟨g', g, _, k, e, hg', hk⟩
      subst hgg
      rcases hg' with hg' | hg'
      · rw [h2] at hg'
        rcases List.mem_cons.1 hg' with e | hg'
        · cases e
          simp [hev]
        · have := hi.sorted (wid c') g'
          rw [h2] at this
          have := (List.pairwise_cons.1 this).1 _ hg' rfl
          simp at this
          omega
      · rw [h1] at hg'
        cases hg'
    · simpa [handledOf, hc] using ho
  | finish w g c' k h1 =>
    by_cases hc : c' = c
    · subst hc
      have hw := (hi.home w g c' k (.inr h1)).1
      subst hw
      simp only [handledOf, List.filterMap_cons, List.filterMap_nil, if_pos, oneByOne_snoc]
      refine ⟨ho, ?_⟩
      have hk := hp.busy _ _ h1
      by_cases hev : evs.length % 2 = 0
      · exact absurd h1 (hp.free hev g k)
      · simp [hk, hev]
    · simpa [handledOf, hc] using ho
  | _ => simpa [handledOf] using ho

/-- What workers do. -/
def PoolHandles : PoolCycle.Label → Prop
  | .begin .. | .finish .. => True
  | _ => False

theorem split_shrinks {n cap : Nat} {wid : Nat → Nat} {s t : PoolCycle.State} {l : PoolCycle.Label} {c : Nat} (hi : PoolInv n wid s) (hn : ¬ SplitOver wid s c) (hl : PoolHandles l) (hs : PoolCycle.Step n cap wid s l t) :
    ¬ SplitOver wid t c := by
  rintro ⟨g, g', k, k', hne, h1, h2⟩
  rw [held_step hi.toPoolShape hi.toPoolItems hs] at h1 h2
  refine hn ⟨g, g', k, k', hne, ?_⟩
  cases l <;> simp [PoolHandles] at hl <;> simp_all

/-- A worker that has a message of `c` in its queue and is not busy with another comes to it. -/
theorem worker_reaches {n cap : Nat} {wid : Nat → Nat} {w g c : Nat} : ∀ (q : List (Nat × Nat)) {s : PoolCycle.State}, s.queue w g = q → (∃ k, (c, k) ∈ q) → s.worker w g ≠ .absent → (∀ k, s.worker w g ≠ .busy c k) →
    ∃ k ls t, (c, k) ∈ q ∧ Steps (PoolCycle.Step n cap wid) s ls t ∧ (∀ l ∈ ls, PoolHandles l) ∧ handledOf c ls = [(true, k)] := by
  intro q
  induction q with
  | nil => rintro s _ ⟨k, h⟩; cases h
  | cons x rest ih =>
    obtain ⟨c', k'⟩ := x
    have idle : ∀ {s : PoolCycle.State}, s.queue w g = (c', k') :: rest → (∃ k, (c, k) ∈ (c', k') :: rest) → s.worker w g = .idle →
        ∃ k ls t, (c, k) ∈ (c', k') :: rest ∧ Steps (PoolCycle.Step n cap wid) s ls t ∧ (∀ l ∈ ls, PoolHandles l) ∧ handledOf c ls = [(true, k)] := by
      intro s hq hk hw
      have hs := PoolCycle.Step.begin (n := n) (cap := cap) (wid := wid) w g c' k' rest hw hq
      by_cases hc : c' = c
      · subst hc
        exact ⟨k', _, _, by simp, .cons hs (.nil _), by simp [PoolHandles], by simp [handledOf]⟩
      · obtain ⟨k, hk⟩ := hk
        have hk : (c, k) ∈ rest := by
          rcases List.mem_cons.1 hk with e | e
          · cases e; exact absurd rfl hc
          · exact e
        obtain ⟨k2, ls, t, h1, h2, h3, h4⟩ := ih (s := { s with worker := upd2 s.worker w g (.busy c' k'), queue := upd2 s.queue w g rest }) (by simp [upd2]) ⟨k, hk⟩ (by simp [upd2]) (by simp [upd2, hc])
        refine ⟨k2, _, t, List.mem_cons_of_mem _ h1, .cons hs h2, ?_, ?_⟩
        · intro l hl
          rcases List.mem_cons.1 hl with e | e
          · rw [e]; trivial
          · exact h3 l e
        · rw [← h4]
          simp [handledOf, hc]
    intro s hq hk ha hb
    cases hw : s.worker w g with
    | absent => exact absurd hw ha
    | idle => exact idle hq hk hw
    | busy c2 k2 =>
      have hc : c2 ≠ c := fun e => hb k2 (e ▸ hw)
      have hs := PoolCycle.Step.finish (n := n) (cap := cap) (wid := wid) w g c2 k2 hw
      obtain ⟨k3, ls, t, h1, h2, h3, h4⟩ := idle (s := { s with worker := upd2 s.worker w g .idle }) hq hk (by simp [upd2])
      refine ⟨k3, _, t, h1, .cons hs h2, ?_, ?_⟩
      · intro l hl
        rcases List.mem_cons.1 hl with e | e
        · rw [e]; trivial
        · exact h3 l e
      · rw [← h4]
        simp [handledOf, hc]

/-- **C118 (exactly when the order can be lost).** As long as the messages of a connection have been handled in order, one at a time: the workers can get them out of order, handling what is there, exactly if messages of the
connection are in two of the queues that its place has had, or with their workers. -/
theorem C118_exact {n cap : Nat} {wid : Nat → Nat} {s : PoolCycle.State} {ls : List PoolCycle.Label} (h : Steps (PoolCycle.Step n cap wid) {} ls s) (c : Nat) (ho : OneByOne (handledOf c ls)) :
    (∃ ls' t, Steps (PoolCycle.Step n cap wid) s ls' t ∧ (∀ l ∈ ls', PoolHandles l) ∧ ¬ OneByOne (handledOf c (ls ++ ls'))) ↔ SplitOver wid s c := by
  constructor
  · rintro ⟨ls', t, h1, h2, h3⟩
    apply Classical.byContradiction
    intro hn
    apply h3
    clear h3
    have gen : ∀ {ls' : List PoolCycle.Label} {s t : PoolCycle.State}, Steps (PoolCycle.Step n cap wid) s ls' t → ∀ {ls}, Steps (PoolCycle.Step n cap wid) {} ls s → ¬ SplitOver wid s c → OneByOne (handledOf c ls) →
        (∀ l ∈ ls', PoolHandles l) → OneByOne (handledOf c (ls ++ ls')) := by
      intro ls' s t h'
      induction h' with
      | nil => intro ls _ _ ho _; simpa using ho
      | @cons s u t l ls' hs _ ih =>
        intro ls h hn ho hl
        have hi := poolInv h
        have := ih (h.snoc hs) (split_shrinks hi hn (hl l (by simp)) hs) (by rw [handledOf_snoc]; exact order_keeps hi (poolOrder h c ho) hn ho hs) (fun l hl' => hl l (by simp [hl']))
        simpa using this
    exact gen h1 h hn ho h2
  · rintro ⟨g, g', k, k', hne, h1, h2⟩
    have hi := poolInv h
    have hp := poolOrder h c ho
    have key : ∀ {g g' k k'}, g < g' → PoolHeld s (wid c) g c k → PoolHeld s (wid c) g' c k' →
        ∃ ls' t, Steps (PoolCycle.Step n cap wid) s ls' t ∧ (∀ l ∈ ls', PoolHandles l) ∧ ¬ OneByOne (handledOf c (ls ++ ls')) := by
      intro g g' k k' hlt h1 h2
      have hle := ((hp.under k).2 ⟨g, h1⟩).1
      have hb : ∀ j, s.worker (wid c) g' ≠ .busy c j := by
        intro j hj
        have e1 := hp.busy _ _ hj
        have e2 := hi.across _ _ _ _ _ _ hlt h1 (.inr hj)
        omega
      have hq : (c, k') ∈ s.queue (wid c) g' := by
        rcases h2 with h2 | h2
        · exact h2
        · exact absurd h2 (hb k')
      have ha := (hi.present (wid c) g').2 (by
        have := hi.home _ _ _ _ h2
        refine ⟨?_, this.2.2⟩
        apply Classical.byContradiction
        intro hge
        have := hi.big (wid c) (by omega)
        omega)
      obtain ⟨j, ls', t, x1, x2, x3, x4⟩ := worker_reaches (n := n) (cap := cap) (wid := wid) _ rfl ⟨k', hq⟩ ha hb
      refine ⟨ls', t, x2, x3, ?_⟩
      have : handledOf c (ls ++ ls') = handledOf c ls ++ [(true, j)] := by
        rw [← x4]; simp [handledOf]
      rw [this, oneByOne_snoc]
      rintro ⟨-, e⟩
      have e2 := hi.across _ _ _ _ _ _ hlt h1 (.inl x1)
      simp at e
      omega
    rcases Nat.lt_or_gt_of_ne hne with hlt | hlt
    · exact key hlt h1 h2
    · exact key hlt h2 h1

/-- No message of connection `c` is in a queue of its place or with a worker, and its reader is not waiting to send one. -/
def PoolQuiet (wid : Nat → Nat) (c : Nat) (s : PoolCycle.State) : Prop := (∀ g k, ¬ PoolHeld s (wid c) g c k) ∧ s.hand c = none

/-- Steps, the queue of connection `c` being replaced only while nothing of it is under way. -/
def QuietStep (n cap : Nat) (wid : Nat → Nat) (c : Nat) (s : PoolCycle.State) (l : PoolCycle.Label) (t : PoolCycle.State) : Prop := PoolCycle.Step n cap wid s l t ∧ (l = .make (wid c) → PoolQuiet wid c s)

/-- **C118 (partial).** The messages of a connection are handled in order, one at a time, over any number of starts, if the server is started again only while none of them is under way. -/
theorem C118_partial {n cap : Nat} {wid : Nat → Nat} {s : PoolCycle.State} {ls : List PoolCycle.Label} {c : Nat} (h : Steps (QuietStep n cap wid c) {} ls s) : OneByOne (handledOf c ls) := by
  have key : Steps (PoolCycle.Step n cap wid) {} ls s ∧ OneByOne (handledOf c ls) ∧ (∀ g k, PoolHeld s (wid c) g c k → g = s.cur (wid c)) ∧ ∀ g, s.hand c = some g → g = s.cur (wid c) := by
    refine h.invariant_trace (P := fun ls s => Steps (PoolCycle.Step n cap wid) {} ls s ∧ OneByOne (handledOf c ls) ∧ (∀ g k, PoolHeld s (wid c) g c k → g = s.cur (wid c)) ∧ ∀ g, s.hand c = some g → g = s.cur (wid c)) ?_
      ⟨.nil _, by simp [handledOf, OneByOne], by simp [PoolHeld], by simp⟩
    rintro ls s l t ⟨h1, h2, h3, h4⟩ ⟨hs, hq⟩
    have hi := poolInv h1
    have hn : ¬ SplitOver wid s c := by
      rintro ⟨g, g', k, k', hne, x1, x2⟩
      exact hne ((h3 g k x1).trans (h3 g' k' x2).symm)
    refine ⟨h1.snoc hs, by rw [handledOf_snoc]; exact order_keeps hi (poolOrder h1 c h2) hn h2 hs, ?_, ?_⟩
    · intro g k hk
      rw [held_step hi.toPoolShape hi.toPoolItems hs] at hk
      cases hs with
      | make i hl hin =>
        simp only at hk
        by_cases e : i = wid c
        · exact absurd hk ((hq (by rw [e])).1 g k)
        · have e' : wid c ≠ i := fun x => e x.symm
          simp [upd, e', h3 g k hk]
      | put c' g' hl hg hr =>
        simp only at hk
        rcases hk with hk | ⟨_, rfl, rfl, rfl⟩
        · exact h3 g k hk
        · exact h4 _ hl
      | finish => exact h3 g k hk.1
      | _ => exact h3 g k hk
    · intro g hg
      cases hs with
      | make i hl hin =>
        by_cases e : i = wid c
        · have := (hq (by rw [e])).2
          simp only at hg
          rw [this] at hg
          cases hg
        · have e' : wid c ≠ i := fun x => e x.symm
          simp [upd, e', h4 g hg]
      | pick c' hl hh =>
        simp only [upd] at hg
        split at hg
        · rename_i e; cases hg; rw [e]
        · exact h4 g hg
      | put c' g' hl hg' hr =>
        simp only [upd] at hg
        split at hg
        · cases hg
        · exact h4 g hg
      | _ => exact h4 g hg
  exact key.2.1

end Zinx.Props
