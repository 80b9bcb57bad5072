import Verif.Model.ChainConc

/-! # C133: interceptors that are added while messages are handled -/

namespace Zinx.Props

open Zinx Zinx.ChainConc

/-- The interceptors whose addition has returned, in the order of the returns. -/
def returnedAdds (ls : List ChainConc.Label) : List Nat := ls.filterMap fun | .addEnd _ x => some x | _ => none

/-- Nothing else is in progress while an interceptor is being added. -/
def ChainAddsAlone (s : ChainConc.State) : Prop :=
  ∀ j, s.adder j ≠ .idle → (∀ i, s.reader i = .idle) ∧ ∀ k, k ≠ j → s.adder k = .idle

/-- Pointer, length and capacity describe an array whose first elements are the interceptors `xs`, with nothing behind them. -/
structure SliceBody (a : List (Option Nat)) (n m : Nat) (xs : List Nat) : Prop where
  len : n = xs.length
  cap : m = a.length
  room : n ≤ m
  cells : a = xs.map some ++ List.replicate (m - n) none

/-- The array after the write of the element. -/
def cellDone (s : ChainConc.State) (x : Nat) (p : Nat) : Option (Nat × Nat) → List (Option Nat)
  | none => s.arr p
  | some (_, k) => (s.arr p).set k (some x)

/-- The state once all writes still to be made are made. -/
structure Storing (s : ChainConc.State) (xs : List Nat) (x : Nat) (e : Option (Nat × Nat)) (p c l : Option Nat) : Prop where
  body : SliceBody (cellDone s x (p.getD s.ptr) e) (l.getD s.len) (c.getD s.cap) (xs ++ [x])
  same : ∀ a k, e = some (a, k) → a = p.getD s.ptr
  known : p.getD s.ptr < s.fresh

/-- What a reader has read so far is what is there. -/
def ReaderFits (s : ChainConc.State) (xs : List Nat) : Reader → Prop
  | .hasLen n => n = s.len
  | .hasPtr p => p = s.ptr
  | .copy n p => n = s.len ∧ p = s.ptr
  | .got r => r = some (xs.map some)
  | _ => True

structure ChainInv (s : ChainConc.State) (xs : List Nat) : Prop where
  calm : (∀ j x e p c l, s.adder j ≠ .storing x e p c l) → SliceBody (s.arr s.ptr) s.len s.cap xs ∧ s.ptr < s.fresh
  storing : ∀ j x e p c l, s.adder j = .storing x e p c l → Storing s xs x e p c l
  readers : ∀ i, ReaderFits s xs (s.reader i)

theorem chain_upd_self {α : Type} (f : Nat → α) (i : Nat) (a : α) : ChainConc.upd f i a i = a := by simp [ChainConc.upd]
theorem chain_upd_other {α : Type} (f : Nat → α) {i j : Nat} (a : α) (h : j ≠ i) : ChainConc.upd f i a j = f j := by simp [ChainConc.upd, h]

theorem chainInv_init : ChainInv ChainConc.init [] :=
  ⟨fun _ => ⟨⟨rfl, rfl, Nat.le_refl _, rfl⟩, by decide⟩, fun j x e p c l h => by simp [ChainConc.init] at h, fun i => trivial⟩

/-- While a reader is at work the body is as it should be. -/
theorem reader_calm {s : ChainConc.State} {xs : List Nat} (hq : ChainAddsAlone s) (hi : ChainInv s xs) {i : Nat} (h : s.reader i ≠ .idle) :
    SliceBody (s.arr s.ptr) s.len s.cap xs ∧ s.ptr < s.fresh := by
  apply hi.calm
  intro j x e p c l hj
  exact h ((hq j (by rw [hj]; simp)).1 i)

/-- A step of a reader. -/
theorem chainInv_reader {s : ChainConc.State} {xs : List Nat} (hi : ChainInv s xs) (i : Nat) (r : Reader) (h : ReaderFits s xs r) :
    ChainInv { s with reader := ChainConc.upd s.reader i r } xs := by
  refine ⟨hi.calm, fun j x e p c l hj => ?_, fun k => ?_⟩
  · have := hi.storing j x e p c l hj
    exact ⟨this.body, this.same, this.known⟩
  · dsimp only
    by_cases hk : k = i
    · subst hk; rw [chain_upd_self]; cases r <;> first | exact h | trivial
    · rw [chain_upd_other _ _ hk]; have := hi.readers k; revert this; cases s.reader k <;> exact id

/-- The state after a step of an adder that leaves it storing. -/
theorem chainInv_storing {s t : ChainConc.State} {xs : List Nat} (hq : ChainAddsAlone s) {j : Nat} (hj : s.adder j ≠ .idle) {x : Nat}
    {e : Option (Nat × Nat)} {p c l : Option Nat} (ha : t.adder = ChainConc.upd s.adder j (.storing x e p c l)) (hr : t.reader = s.reader)
    (h : Storing t xs x e p c l) : ChainInv t xs := by
  obtain ⟨h1, h2⟩ := hq j hj
  refine ⟨fun hn => ?_, fun k x' e' p' c' l' hk => ?_, fun i => ?_⟩
  · exact absurd (by rw [ha, chain_upd_self]) (hn j x e p c l)
  · rw [ha] at hk
    by_cases hkj : k = j
    · subst hkj; rw [chain_upd_self] at hk; cases hk; exact h
    · rw [chain_upd_other _ _ hkj, h2 k hkj] at hk; cases hk
  · rw [hr, h1 i]; trivial

theorem chainInv_step (s : ChainConc.State) (l : ChainConc.Label) (t : ChainConc.State) (xs : List Nat) (hq : ChainAddsAlone s) (hi : ChainInv s xs)
    (h : ChainConc.Step s l t) : ChainInv t (xs ++ returnedAdds [l]) := by
  cases h with
  | @addBegin j x h =>
    simp only [returnedAdds, List.filterMap, List.append_nil]
    refine ⟨fun hn => hi.calm fun k x' e p c l hk => ?_, fun k x' e p c l hk => ?_, hi.readers⟩
    · by_cases hkj : k = j
      · subst hkj; rw [h] at hk; cases hk
      · exact hn k x' e p c l (by dsimp only; rw [chain_upd_other _ _ hkj]; exact hk)
    · dsimp only at hk
      by_cases hkj : k = j
      · subst hkj; rw [chain_upd_self] at hk; cases hk
      · rw [chain_upd_other _ _ hkj] at hk
        have := hi.storing k x' e p c l hk
        exact ⟨this.body, this.same, this.known⟩
  | @inPlace j x h hr =>
    simp only [returnedAdds, List.filterMap, List.append_nil]
    have hne : s.adder j ≠ .idle := by rw [h]; simp
    have hcalm := hi.calm (by
      intro k x' e p c l hk
      by_cases hkj : k = j
      · subst hkj; rw [h] at hk; cases hk
      · rw [(hq j hne).2 k hkj] at hk; cases hk)
    obtain ⟨⟨b1, b2, b3, b4⟩, hk⟩ := hcalm
    refine chainInv_storing hq hne rfl rfl ⟨⟨by simp [b1], ?_, ?_, ?_⟩, by simp, hk⟩
    · simp [cellDone, b2]
    · dsimp only [Option.getD]; omega
    · simp only [cellDone, Option.getD]
      generalize hA : s.arr s.ptr = A at b2 b4 ⊢
      have e1 : s.cap - s.len = (s.cap - (s.len + 1)) + 1 := by omega
      rw [b4, e1, List.replicate_succ, b1]
      simp
  | @grow j x c h hr hc =>
    simp only [returnedAdds, List.filterMap, List.append_nil]
    have hne : s.adder j ≠ .idle := by rw [h]; simp
    have hcalm := hi.calm (by
      intro k x' e p c l hk
      by_cases hkj : k = j
      · subst hkj; rw [h] at hk; cases hk
      · rw [(hq j hne).2 k hkj] at hk; cases hk)
    obtain ⟨⟨b1, b2, b3, b4⟩, hk⟩ := hcalm
    have e0 : (s.arr s.ptr).take s.len = xs.map some := by
      rw [b4, b1, List.take_append_of_le_length (by simp), List.take_of_length_le (by simp)]
    refine chainInv_storing hq hne rfl rfl ⟨⟨by simp [b1], ?_, ?_, ?_⟩, by simp, ?_⟩
    · simp only [cellDone, Option.getD, chain_upd_self, e0]
      simp; omega
    · show s.len + 1 ≤ c
      exact hc
    · simp only [cellDone, Option.getD, chain_upd_self, e0]
      have e1 : c - s.len = (c - (s.len + 1)) + 1 := by omega
      rw [e1, List.replicate_succ, b1]
      simp
    · dsimp only [Option.getD]; omega
  | @writeCell j x a k p c l h =>
    simp only [returnedAdds, List.filterMap, List.append_nil]
    have hne : s.adder j ≠ .idle := by rw [h]; simp
    have hs := hi.storing j x _ p c l h
    have ha := hs.same a k rfl
    refine chainInv_storing hq hne rfl rfl ⟨?_, by simp, hs.known⟩
    have := hs.body
    simp only [cellDone] at this ⊢
    subst ha
    rw [chain_upd_self]; exact this
  | @writePtr j x p e c l h =>
    simp only [returnedAdds, List.filterMap, List.append_nil]
    have hne : s.adder j ≠ .idle := by rw [h]; simp
    have hs := hi.storing j x e _ c l h
    refine chainInv_storing hq hne rfl rfl ⟨?_, hs.same, hs.known⟩
    have := hs.body
    cases e <;> exact this
  | @writeCap j x c e p l h =>
    simp only [returnedAdds, List.filterMap, List.append_nil]
    have hne : s.adder j ≠ .idle := by rw [h]; simp
    have hs := hi.storing j x e p _ l h
    refine chainInv_storing hq hne rfl rfl ⟨?_, hs.same, hs.known⟩
    have := hs.body
    cases e <;> exact this
  | @writeLen j x l e p c h =>
    simp only [returnedAdds, List.filterMap, List.append_nil]
    have hne : s.adder j ≠ .idle := by rw [h]; simp
    have hs := hi.storing j x e p c _ h
    refine chainInv_storing hq hne rfl rfl ⟨?_, hs.same, hs.known⟩
    have := hs.body
    cases e <;> exact this
  | @addEnd j x h =>
    have hne : s.adder j ≠ .idle := by rw [h]; simp
    have hs := hi.storing j x _ _ _ _ h
    obtain ⟨h1, h2⟩ := hq j hne
    refine ⟨fun _ => ⟨?_, ?_⟩, fun k x' e p c l hk => ?_, fun i => ?_⟩
    · exact hs.body
    · exact hs.known
    · dsimp only at hk
      by_cases hkj : k = j
      · subst hkj; rw [chain_upd_self] at hk; cases hk
      · rw [chain_upd_other _ _ hkj, h2 k hkj] at hk; cases hk
    · dsimp only; rw [h1 i]; trivial
  | @execBegin i h => simpa [returnedAdds] using chainInv_reader hi i .test trivial
  | @empty i h hz =>
    have hb := (reader_calm hq hi (i := i) (by rw [h]; simp)).1
    have : xs = [] := List.length_eq_zero_iff.1 (by rw [← hb.len]; exact hz)
    simpa [returnedAdds] using chainInv_reader hi i (.got (some [])) (by simp [ReaderFits, this])
  | @some i h hz => simpa [returnedAdds] using chainInv_reader hi i .load trivial
  | @lenFirst i h => simpa [returnedAdds] using chainInv_reader hi i (.hasLen s.len) rfl
  | @ptrSecond i n h =>
    have := hi.readers i
    rw [h] at this
    simpa [returnedAdds] using chainInv_reader hi i (.copy n s.ptr) ⟨this, rfl⟩
  | @ptrFirst i h => simpa [returnedAdds] using chainInv_reader hi i (.hasPtr s.ptr) rfl
  | @lenSecond i p h =>
    have := hi.readers i
    rw [h] at this
    simpa [returnedAdds] using chainInv_reader hi i (.copy s.len p) ⟨rfl, this⟩
  | @copy i n p h =>
    have hr := hi.readers i
    rw [h] at hr
    obtain ⟨rfl, rfl⟩ := hr
    have hb := (reader_calm hq hi (i := i) (by rw [h]; simp)).1
    simp only [returnedAdds, List.filterMap, List.append_nil]
    apply chainInv_reader hi i
    show _ = _
    have hle : s.len ≤ (s.arr s.ptr).length := by rw [← hb.cap]; exact hb.room
    rw [if_pos hle]
    rw [hb.cells, hb.len, List.take_append_of_le_length (by simp), List.take_of_length_le (by simp)]
  | @execEnd i r h => simpa [returnedAdds] using chainInv_reader hi i .idle trivial

/-- **C133 as far as it holds.** If nothing else is in progress while an interceptor is being added, every message passes exactly the interceptors
whose addition has returned before, each once and in the order of the additions. -/
theorem C133_partial {l1 l2 : List ChainConc.Label} {t : ChainConc.State} {i : Nat} {r : Option (List (Option Nat))}
    (h : StepsAll ChainConc.Step ChainAddsAlone ChainConc.init (l1 ++ .execEnd i r :: l2) t) : r = some ((returnedAdds l1).map some) := by
  have key : ∀ (l1 : List ChainConc.Label) (s : ChainConc.State) (xs : List Nat), ChainInv s xs →
      StepsAll ChainConc.Step ChainAddsAlone s (l1 ++ .execEnd i r :: l2) t → r = some ((xs ++ returnedAdds l1).map some) := by
    intro l1
    induction l1 with
    | nil =>
      intro s xs hi h
      cases h with
      | cons hq hs _ =>
        cases hs with
        | execEnd h => have := hi.readers i; rw [h] at this; simpa [returnedAdds, ReaderFits] using this
    | cons l l1 ih =>
      intro s xs hi h
      cases h with
      | cons hq hs h =>
        have := ih _ _ (chainInv_step _ _ _ xs hq hi hs) h
        rw [this]
        simp only [returnedAdds, List.append_assoc]
        congr 2
        rw [← List.filterMap_append]
        rfl
  simpa using key l1 ChainConc.init [] chainInv_init h

/-- The state after any execution in which additions are alone. -/
theorem chainInv_reach {ls : List ChainConc.Label} {s : ChainConc.State} (h : StepsAll ChainConc.Step ChainAddsAlone ChainConc.init ls s) :
    ChainInv s (returnedAdds ls) := by
  have key : ∀ (ls : List ChainConc.Label) (a : ChainConc.State) (xs : List Nat), ChainInv a xs →
      StepsAll ChainConc.Step ChainAddsAlone a ls s → ChainInv s (xs ++ returnedAdds ls) := by
    intro ls
    induction ls with
    | nil => intro a xs hi h; cases h; simpa [returnedAdds] using hi
    | cons l ls ih =>
      intro a xs hi h
      cases h with
      | cons hq hs h =>
        have := ih _ _ (chainInv_step _ _ _ xs hq hi hs) h
        simp only [returnedAdds, List.append_assoc] at this ⊢
        rw [← List.filterMap_append] at this
        exact this
  simpa using key ls ChainConc.init [] chainInv_init h

/-- **C133 fails at every addition.** Whatever has been added before, an addition and the handling of one message, started when nothing else is in
progress, can come together so that what the message passes is no list of interceptors: one of them is nil, which panics when it is called, or
memory behind the end of the array is read. -/
theorem C133_any_refuted {ls : List ChainConc.Label} {s : ChainConc.State} (h : StepsAll ChainConc.Step ChainAddsAlone ChainConc.init ls s)
    (ha : ∀ j, s.adder j = .idle) (hr : ∀ i, s.reader i = .idle) (j x i : Nat) :
    ∃ r t, Steps ChainConc.Step s [.addBegin j x, .tau, .tau, .execBegin i, .tau, .tau, .tau, .tau, .execEnd i r] t ∧ ∀ ys : List Nat, r ≠ some (ys.map some) := by
  have hi := chainInv_reach h
  obtain ⟨⟨b1, b2, b3, b4⟩, hk⟩ := hi.calm (fun k y e p c l hk => by rw [ha k] at hk; cases hk)
  by_cases hc : s.len < s.cap
  · refine ⟨_, _, .cons (.addBegin (x := x) (ha j)) (.cons (.inPlace (chain_upd_self _ _ _) hc) (.cons (.writeLen (chain_upd_self _ _ _))
      (.cons (.execBegin (hr i)) (.cons (.some (chain_upd_self _ _ _) (by dsimp only; omega)) (.cons (.lenFirst (chain_upd_self _ _ _))
      (.cons (.ptrSecond (chain_upd_self _ _ _)) (.cons (.copy (chain_upd_self _ _ _)) (.cons (.execEnd (chain_upd_self _ _ _)) (.nil _))))))))), ?_⟩
    intro ys
    dsimp only
    rw [if_pos (by omega)]
    intro he
    injection he with he
    have hn : (none : Option Nat) ∈ (s.arr s.ptr).take (s.len + 1) := by
      generalize hA : s.arr s.ptr = A at b2 b4 ⊢
      have e1 : s.cap - s.len = (s.cap - (s.len + 1)) + 1 := by omega
      rw [b4, e1, List.replicate_succ, b1]
      simp [List.take_append]
    rw [he] at hn
    simp at hn
  · refine ⟨_, _, .cons (.addBegin (x := x) (ha j)) (.cons (.grow (chain_upd_self _ _ _) hc (Nat.le_refl _)) (.cons (.writeLen (chain_upd_self _ _ _))
      (.cons (.execBegin (hr i)) (.cons (.some (chain_upd_self _ _ _) (by dsimp only; omega)) (.cons (.lenFirst (chain_upd_self _ _ _))
      (.cons (.ptrSecond (chain_upd_self _ _ _)) (.cons (.copy (chain_upd_self _ _ _)) (.cons (.execEnd (chain_upd_self _ _ _)) (.nil _))))))))), ?_⟩
    intro ys
    have e : ChainConc.upd s.arr s.fresh ((s.arr s.ptr).take s.len ++ List.replicate (s.len + 1 - s.len) none) s.ptr = s.arr s.ptr :=
      chain_upd_other _ _ (by omega)
    have hn : ¬ s.len + 1 ≤ (ChainConc.upd s.arr s.fresh ((s.arr s.ptr).take s.len ++ List.replicate (s.len + 1 - s.len) none) s.ptr).length := by
      rw [e]; omega
    intro he
    exact absurd ((if_neg hn).symm.trans he) (by simp)

/-- **C133 fails for two additions at a time.** Both return, and one of the interceptors is lost: no message passes it. -/
theorem C133_lost_refuted : ∃ ls t r, Steps ChainConc.Step ChainConc.init (ls ++ [.execEnd 0 r]) t ∧ returnedAdds ls = [7, 8] ∧
    (∀ j, t.adder j = .idle) ∧ (∀ i, t.reader i = .idle) ∧ r = some [some 8] := by
  refine ⟨[.addBegin 0 7, .addBegin 1 8, .tau, .tau, .tau, .tau, .tau, .tau, .addEnd 0 7, .tau, .tau, .tau, .tau, .addEnd 1 8, .execBegin 0, .tau, .tau, .tau, .tau],
    _, _,
    .cons (.addBegin (j := 0) (x := 7) rfl) (.cons (.addBegin (j := 1) (x := 8) rfl) (.cons (.grow (j := 0) (c := 1) rfl (by decide) (by decide))
    (.cons (.grow (j := 1) (c := 1) rfl (by decide) (by decide)) (.cons (.writeCell (j := 0) rfl) (.cons (.writePtr (j := 0) rfl)
    (.cons (.writeCap (j := 0) rfl) (.cons (.writeLen (j := 0) rfl) (.cons (.addEnd (j := 0) rfl) (.cons (.writeCell (j := 1) rfl)
    (.cons (.writePtr (j := 1) rfl) (.cons (.writeCap (j := 1) rfl) (.cons (.writeLen (j := 1) rfl) (.cons (.addEnd (j := 1) rfl)
    (.cons (.execBegin (i := 0) rfl) (.cons (.some (i := 0) rfl (by decide)) (.cons (.lenFirst (i := 0) rfl) (.cons (.ptrSecond (i := 0) rfl)
    (.cons (.copy (i := 0) rfl) (.cons (.execEnd (i := 0) rfl) (.nil _)))))))))))))))))))), rfl, ?_, ?_, rfl⟩
  · intro j; simp [ChainConc.upd, ChainConc.init]; split <;> simp_all
  · intro i
    by_cases h0 : i = 0
    · subst h0; rfl
    · simp [ChainConc.upd, ChainConc.init, h0]

/-- Two interceptors are added one after the other, then a message passes both: the hypothesis of `C133_partial` is met. -/
example : ∃ t, StepsAll ChainConc.Step ChainAddsAlone ChainConc.init ([.addBegin 0 7, .tau, .tau, .tau, .tau, .tau, .addEnd 0 7, .addBegin 1 8, .tau,
    .tau, .tau, .addEnd 1 8, .execBegin 0, .tau, .tau, .tau, .tau] ++ .execEnd 0 (some [some 7, some 8]) :: []) t := by
  refine ⟨_, .cons ?_ (.addBegin (j := 0) (x := 7) rfl) (.cons ?_ (.grow (j := 0) (c := 4) rfl (by decide) (by decide)) (.cons ?_ (.writeCell (j := 0) rfl)
    (.cons ?_ (.writePtr (j := 0) rfl) (.cons ?_ (.writeCap (j := 0) rfl) (.cons ?_ (.writeLen (j := 0) rfl) (.cons ?_ (.addEnd (j := 0) rfl)
    (.cons ?_ (.addBegin (j := 1) (x := 8) rfl) (.cons ?_ (.inPlace (j := 1) rfl (by decide)) (.cons ?_ (.writeLen (j := 1) rfl)
    (.cons ?_ (.writeCell (j := 1) rfl) (.cons ?_ (.addEnd (j := 1) rfl) (.cons ?_ (.execBegin (i := 0) rfl) (.cons ?_ (.some (i := 0) rfl (by decide))
    (.cons ?_ (.ptrFirst (i := 0) rfl) (.cons ?_ (.lenSecond (i := 0) rfl) (.cons ?_ (.copy (i := 0) rfl) (.cons ?_ (.execEnd (i := 0) rfl) (.nil ?_))))))))))))))))))⟩
  all_goals
    intro j hj
    by_cases h0 : j = 0
    · subst h0
      simp [ChainConc.upd, ChainConc.init] at hj ⊢ <;> (intro k hk; by_cases hk0 : k = 0 <;> simp_all)
    · by_cases h1 : j = 1
      · subst h1
        simp [ChainConc.upd, ChainConc.init] at hj ⊢ <;> (intro k hk; by_cases hk0 : k = 0 <;> simp_all)
      · simp [ChainConc.upd, ChainConc.init, h0, h1] at hj

/-- The hypotheses of `C133_any_refuted` are met at the start. -/
example : ∃ r t, Steps ChainConc.Step ChainConc.init [.addBegin 0 7, .tau, .tau, .execBegin 0, .tau, .tau, .tau, .tau, .execEnd 0 r] t ∧
    ∀ ys : List Nat, r ≠ some (ys.map some) :=
  C133_any_refuted (.nil fun _ h => absurd rfl h) (fun _ => rfl) (fun _ => rfl) 0 7 0

/-- Ends of `Execute` in goroutine `i`. -/
def execEnds (i : Nat) (ls : List ChainConc.Label) : Nat := ls.countP fun | .execEnd i' _ => i' = i | _ => false

/-- Additions begun and ended in goroutine `j`. -/
def addBegins (j : Nat) (ls : List ChainConc.Label) : List Nat := ls.filterMap fun | .addBegin j' x => if j' = j then some x else none | _ => none
def addEnds (j : Nat) (ls : List ChainConc.Label) : List Nat := ls.filterMap fun | .addEnd j' x => if j' = j then some x else none | _ => none

/-- The interceptor that is being added. -/
def adding : ChainConc.Adder → List Nat
  | .idle => []
  | .want x => [x]
  | .storing x _ _ _ _ => [x]

theorem adding_upd {f : Nat → ChainConc.Adder} {i j : Nat} {v : ChainConc.Adder} (h : adding v = adding (f j)) : adding (ChainConc.upd f j v i) = adding (f i) := by
  unfold ChainConc.upd
  split
  · rename_i e; subst e; exact h
  · rfl

theorem idle_upd {f : Nat → ChainConc.Reader} {i j : Nat} {v : ChainConc.Reader} (hv : v ≠ .idle) (hf : f j ≠ .idle) : (if ChainConc.upd f j v i = .idle then 0 else 1 : Nat) = if f i = .idle then 0 else 1 := by
  unfold ChainConc.upd
  split
  · rename_i e; subst e; simp [hf]
  · rfl

/-- However the goroutines interleave, each of them goes through one call after the other: `Execute` ends once for each time it begins, and `AddInterceptor` ends for the interceptors it began with, in that order. -/
theorem C133_calls {ls : List ChainConc.Label} {s : ChainConc.State} (h : Steps ChainConc.Step ChainConc.init ls s) (i : Nat) :
    ls.count (.execBegin i) = execEnds i ls + (if s.reader i = .idle then 0 else 1) ∧ addBegins i ls = addEnds i ls ++ adding (s.adder i) := by
  refine h.invariant_trace (P := fun ls s => ls.count (.execBegin i) = execEnds i ls + (if s.reader i = .idle then 0 else 1) ∧ addBegins i ls = addEnds i ls ++ adding (s.adder i)) ?_
    (by simp [execEnds, ChainConc.init, addBegins, addEnds, adding])
  intro ls s l t ⟨h1, h2⟩ hs
  unfold execEnds addBegins addEnds at *
  simp only [List.countP_append, List.countP_cons, List.countP_nil, List.count_append, List.count_cons, List.count_nil, List.filterMap_append, List.filterMap_cons, List.filterMap_nil]
  cases hs with
  | @addBegin j x hr =>
    by_cases hj : j = i
    · subst hj; simp [ChainConc.upd, adding, hr] at h2 ⊢; exact ⟨h1, h2⟩
    · simp [ChainConc.upd, hj, Ne.symm hj, h2]; exact h1
  | @addEnd j x hr =>
    by_cases hj : j = i
    · subst hj; simp [ChainConc.upd, adding, hr] at h2 ⊢; exact ⟨h1, h2⟩
    · simp [ChainConc.upd, hj, Ne.symm hj, h2]; exact h1
  | inPlace hr | grow hr | writeCell hr | writePtr hr | writeCap hr | writeLen hr =>
    dsimp only
    rw [adding_upd (by rw [hr]; rfl)]
    simpa using ⟨h1, h2⟩
  | @execBegin j hr =>
    by_cases hj : j = i
    · subst hj; simp [ChainConc.upd, hr] at h1 ⊢; exact ⟨h1, h2⟩
    · simp [ChainConc.upd, hj, Ne.symm hj]; exact ⟨h1, h2⟩
  | @execEnd j r hr =>
    by_cases hj : j = i
    · subst hj; simp [ChainConc.upd, hr] at h1 ⊢; exact ⟨h1, h2⟩
    · simp [ChainConc.upd, hj, Ne.symm hj]; exact ⟨h1, h2⟩
  | empty hr | some hr | lenFirst hr | ptrSecond hr | ptrFirst hr | lenSecond hr | copy hr =>
    dsimp only
    rw [idle_upd (by simp) (by rw [hr]; simp)]
    simpa using ⟨h1, h2⟩

/-- Two goroutines call `Execute` at the same time, one of them twice, while an interceptor is being added. -/
example : ∃ ls s, Steps ChainConc.Step ChainConc.init ls s ∧ ls.count (.execBegin 0) = 2 ∧ execEnds 0 ls = 1 ∧ addEnds 2 ls = [] ∧ addBegins 2 ls = [7] :=
  ⟨[.addBegin 2 7, .execBegin 0, .execBegin 1, .tau, .execEnd 0 (some []), .execBegin 0], _, .cons (.addBegin (j := 2) (x := 7) rfl) <| .cons (.execBegin (i := 0) rfl) <| .cons (.execBegin (i := 1) rfl) <|
    .cons (.empty (i := 0) rfl rfl) <| .cons (.execEnd (i := 0) rfl) <| .cons (.execBegin (i := 0) rfl) (.nil _), by decide, rfl, rfl, rfl⟩

end Zinx.Props
