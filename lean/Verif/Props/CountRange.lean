import Verif.Props.ShardMap

/-! # C47: what `Count` returns when the map is changed in any way during the call -/

namespace Zinx.Props

open Zinx Zinx.ShardMap Zinx.Spec.ShardMap

section
variable {K V : Type} [DecidableEq K]

/-- Key `k` is in the map at some moment of the execution `ls`. -/
def SomeTime (m : Shards K V) (ls : List (ScanAct K V)) (k : K) : Prop :=
  ∃ l1 l2 u, ls = l1 ++ l2 ∧ Steps CountStep (countStart m) l1 u ∧ u.map.get k ≠ none

/-- Key `k` is in the map at every moment of the execution `ls`. -/
def AllTime (m : Shards K V) (ls : List (ScanAct K V)) (k : K) : Prop :=
  ∀ l1 l2 u, ls = l1 ++ l2 → Steps CountStep (countStart m) l1 u → u.map.get k ≠ none

theorem someTime_snoc {m : Shards K V} {ls : List (ScanAct K V)} {l : ScanAct K V} {k : K} (h : SomeTime m ls k) : SomeTime m (ls ++ [l]) k := by
  obtain ⟨l1, l2, u, rfl, h1, h2⟩ := h
  exact ⟨l1, l2 ++ [l], u, by simp, h1, h2⟩

theorem allTime_init {m : Shards K V} {ls : List (ScanAct K V)} {l : ScanAct K V} {k : K} (h : AllTime m (ls ++ [l]) k) : AllTime m ls k := by
  intro l1 l2 u e hs
  subst e
  exact h l1 (l2 ++ [l]) u (by simp) hs

/-- What has been counted: each key at most once, and those that never left. -/
structure CountedInv (m : Shards K V) (ls : List (ScanAct K V)) (s : Counting K V) : Prop where
  reach : Steps CountStep (countStart m) ls s
  wf : Wf s.map
  found : ∃ counted : List K, counted.Nodup ∧ counted.length = s.sum ∧ (∀ k ∈ counted, s.map.index k < s.next ∧ SomeTime m ls k) ∧
    ∀ k, AllTime m ls k → s.map.index k < s.next → k ∈ counted

theorem counted_step {m : Shards K V} {ls : List (ScanAct K V)} {s t : Counting K V} {l : ScanAct K V} (h : CountedInv m ls s)
    (hs : CountStep s l t) : CountedInv m (ls ++ [l]) t := by
  obtain ⟨hr, w, c, hn, hl, h1, h2⟩ := h
  have hr' := hr.snoc hs
  cases hs with
  | update u =>
    refine ⟨hr', update_wf w u, c, hn, hl, ?_, ?_⟩
    · intro k hk
      rw [update_index]
      exact ⟨(h1 k hk).1, someTime_snoc (h1 k hk).2⟩
    · intro k hk hi
      rw [update_index] at hi
      exact h2 k (allTime_init hk) hi
  | visit hv =>
    have place : ∀ k, k ∈ (s.map.shard s.next).map (·.1) → s.map.index k = s.next ∧ s.map.get k ≠ none := by
      intro k hk
      obtain ⟨⟨k', v⟩, hm, rfl⟩ := List.mem_map.1 hk
      have e := w.place _ _ _ hm
      refine ⟨e, ?_⟩
      unfold Shards.get
      rw [e, lookup_of_mem (w.nodup _) hm]
      simp
    refine ⟨hr', w, c ++ (s.map.shard s.next).map (·.1), ?_, by simp [hl], ?_, ?_⟩
    · refine List.nodup_append.2 ⟨hn, w.nodup _, ?_⟩
      intro a ha b hb e
      subst e
      have := (h1 a ha).1
      have := (place a hb).1
      omega
    · intro k hk
      show s.map.index k < s.next + 1 ∧ _
      rcases List.mem_append.1 hk with hk | hk
      · exact ⟨by have := (h1 k hk).1; omega, someTime_snoc (h1 k hk).2⟩
      · have := place k hk
        exact ⟨by omega, ls, [.visit s.next], s, rfl, hr, this.2⟩
    · intro k hk hi
      have hi : s.map.index k < s.next + 1 := hi
      by_cases c : s.map.index k < s.next
      · exact List.mem_append_left _ (h2 k (allTime_init hk) c)
      · refine List.mem_append_right _ ?_
        have e : s.map.index k = s.next := by omega
        have := hk ls [.visit s.next] s rfl hr
        unfold Shards.get at this
        rw [e] at this
        cases hx : lookup (s.map.shard s.next) k with
        | none => exact absurd hx this
        | some v => exact List.mem_map.2 ⟨(k, v), (lookup_iff (w.nodup _)).1 hx, rfl⟩

/-- **C47 (any updates).** Whatever other goroutines add and remove during the call, `Count` returns the size of some set of keys that contains every
key which was in the map during the whole call, and only keys which were in the map at some moment of the call. -/
theorem C47_between_partial {hash : K → UInt32} {n : Nat} (hn : n % 4294967296 ≠ 0) {hist : List (Op K V × Res K V)} {m : Shards K V}
    (hm : Steps ShardMap.Call (create V hash n) hist m) {ls : List (ScanAct K V)} {s : Counting K V}
    (h : Steps CountStep (countStart m) ls s) (hdone : s.next = s.map.shards.length) :
    ∃ counted : List K, counted.Nodup ∧ s.sum = counted.length ∧
      (∀ k, (∀ l1 l2 u, ls = l1 ++ l2 → Steps CountStep (countStart m) l1 u → u.map.get k ≠ none) → k ∈ counted) ∧
      ∀ k ∈ counted, ∃ l1 l2 u, ls = l1 ++ l2 ∧ Steps CountStep (countStart m) l1 u ∧ u.map.get k ≠ none := by
  have w := (calls_spec (create_wf hash n hn) hm).1
  have inv := Steps.invariant_trace (P := CountedInv m) (fun ls s l t hp hst => counted_step hp hst) h
    ⟨.nil _, w, [], List.nodup_nil, rfl, by simp, by intro k _ hi; exact absurd hi (Nat.not_lt_zero _)⟩
  obtain ⟨c, hc, hl, h1, h2⟩ := inv.found
  refine ⟨c, hc, hl.symm, ?_, fun k hk => (h1 k hk).2⟩
  intro k hk
  exact h2 k hk (by rw [hdone]; exact Wf.index_lt inv.wf.size k)

end

/-- While key 1 stays, key 0 goes and key 2 comes behind the count (keys in shard 0 for even, 1 for odd numbers): `Count` returns 2. -/
example : ∃ (m : Shards Nat Nat) (hist : List (Op Nat Nat × Res Nat Nat)) (ls : List (ScanAct Nat Nat)) (s : Counting Nat Nat),
    Steps ShardMap.Call (create Nat (fun k => UInt32.ofNat k) 2) hist m ∧ Steps CountStep (countStart m) ls s ∧
    s.next = s.map.shards.length ∧ s.sum = 2 ∧ (∃ u, .update u ∈ ls) :=
  ⟨_, _, _, _, .cons (.set _ 0 5) (.cons (.set _ 1 6) (.nil _)),
    .cons (.visit _ (by decide)) (.cons (.update _ (.remove 0)) (.cons (.update _ (.set 2 7)) (.cons (.visit _ (by decide)) (.nil _)))),
    by decide, by decide, ⟨.remove 0, by simp⟩⟩

/-- Keys `(i, true)` in shard 1 and `(i, false)` in shard 0. -/
def twoShards (k : Nat × Bool) : UInt32 := if k.2 then 1 else 0

/-- The first `j` of `n` keys have moved from shard 1 to shard 0. -/
structure Moved (n j : Nat) (m : Shards (Nat × Bool) Nat) : Prop where
  wf : Wf m
  hash : m.hash = twoShards
  two : m.shards.length = 2
  keys : ∀ i b, m.get (i, b) ≠ none ↔ i < n ∧ (b = true ↔ j ≤ i)

theorem moved_empty {n j : Nat} {m : Shards (Nat × Bool) Nat} (h : Moved n j m) (b : Bool) (hb : ∀ i, ¬ (i < n ∧ (b = true ↔ j ≤ i))) :
    (m.shard (if b then 1 else 0)).length = 0 := by
  rw [List.length_eq_zero_iff, List.eq_nil_iff_forall_not_mem]
  intro ⟨⟨i, c⟩, v⟩ hm
  have hp := h.wf.place _ _ _ hm
  have e : m.index (i, c) = if c then 1 else 0 := by
    unfold Shards.index
    rw [h.hash, h.two]
    cases c <;> rfl
  have cb : c = b := by
    rw [e] at hp
    cases c <;> cases b <;> simp at hp ⊢
  subst cb
  refine hb i ((h.keys i c).1 ?_)
  unfold Shards.get
  rw [hp, lookup_of_mem (h.wf.nodup _) hm]
  simp

/-- **C47 refuted (any error).** Whatever the number `n`: `Count` can return 0 although at every moment of the call there are at least `n` keys. -/
theorem C47_refuted_any (n : Nat) : ∃ (m : Shards (Nat × Bool) Nat) (hist : List (Op (Nat × Bool) Nat × Res (Nat × Bool) Nat))
    (ls : List (ScanAct (Nat × Bool) Nat)) (s : Counting (Nat × Bool) Nat),
    Steps ShardMap.Call (create Nat twoShards 2) hist m ∧
    StepsAll CountStep (fun s => ∀ i, i < n → s.map.get (i, true) ≠ none ∨ s.map.get (i, false) ≠ none) (countStart m) ls s ∧
    s.next = s.map.shards.length ∧ s.sum = 0 := by
  have fill : ∀ d, ∃ hist m, Steps ShardMap.Call (create Nat twoShards 2) hist m ∧ Moved d 0 m := by
    intro d
    induction d with
    | zero =>
      refine ⟨[], _, .nil _, create_wf _ _ (by decide), rfl, rfl, ?_⟩
      intro i b
      rw [create_get]
      simp
    | succ d ih =>
      obtain ⟨hist, m, hs, hm⟩ := ih
      refine ⟨_, _, hs.snoc (.set m (d, true) 0), set_wf hm.wf _ _, hm.hash, by simpa [Shards.set, put_length] using hm.two, ?_⟩
      intro i b
      rw [get_set hm.wf]
      have := hm.keys i b
      by_cases c : (i, b) = (d, true)
      · simp only [Prod.mk.injEq] at c
        obtain ⟨rfl, rfl⟩ := c
        simp
      · rw [if_neg c, this]
        simp only [Prod.mk.injEq, not_and] at c
        constructor
        · intro ⟨x, y⟩; exact ⟨by omega, y⟩
        · intro ⟨x, y⟩
          have hb : b = true := y.2 (Nat.zero_le _)
          exact ⟨by have : i ≠ d := fun e => c e hb; omega, y⟩
  obtain ⟨hist, m, hs, hm⟩ := fill n
  let Q : Counting (Nat × Bool) Nat → Prop := fun s => ∀ i, i < n → s.map.get (i, true) ≠ none ∨ s.map.get (i, false) ≠ none
  have q : ∀ {j : Nat} {s : Counting (Nat × Bool) Nat}, Moved n j s.map → Q s := by
    intro j s h i hi
    by_cases c : j ≤ i
    · exact .inl ((h.keys i true).2 ⟨hi, by simp [c]⟩)
    · exact .inr ((h.keys i false).2 ⟨hi, by simp [c]⟩)
  have append : ∀ {a b c : Counting (Nat × Bool) Nat} {l1 l2 : List (ScanAct (Nat × Bool) Nat)},
      StepsAll CountStep Q a l1 b → StepsAll CountStep Q b l2 c → StepsAll CountStep Q a (l1 ++ l2) c := by
    intro a b c l1 l2 h1 h2
    induction h1 with
    | nil _ => exact h2
    | cons hq hs _ ih => exact .cons hq hs (ih h2)
  have move : ∀ j, j ≤ n → ∃ ls s, StepsAll CountStep Q { map := m, next := 1, sum := 0 } ls s ∧ s.next = 1 ∧ s.sum = 0 ∧ Moved n j s.map := by
    intro j
    induction j with
    | zero => intro _; exact ⟨[], _, .nil (q hm), rfl, rfl, hm⟩
    | succ j ih =>
      intro hj
      obtain ⟨ls, s, h1, h2, h3, h4⟩ := ih (by omega)
      have k1 : ∀ i b, (s.map.set (j, false) 0).get (i, b) ≠ none ↔ i < n ∧ ((b = true ↔ j ≤ i) ∨ (i, b) = (j, false)) := by
        intro i b
        rw [get_set h4.wf]
        by_cases c : (i, b) = (j, false)
        · rw [if_pos c]
          simp only [Prod.mk.injEq] at c
          obtain ⟨rfl, rfl⟩ := c
          simp; omega
        · rw [if_neg c, h4.keys]
          simp [c]
      have w1 := set_wf h4.wf (j, false) 0
      have nxt : Moved n (j + 1) ((s.map.set (j, false) 0).remove (j, true)) := by
        refine ⟨remove_wf w1 _, h4.hash, by simpa [Shards.set, Shards.remove, put_length] using h4.two, ?_⟩
        intro i b
        rw [get_remove w1]
        by_cases c : (i, b) = (j, true)
        · rw [if_pos c]
          simp only [Prod.mk.injEq] at c
          obtain ⟨rfl, rfl⟩ := c
          simp
        · rw [if_neg c, k1]
          cases b
          · simp only [Prod.mk.injEq, and_true, Bool.false_eq_true, false_iff]; omega
          · simp only [Prod.mk.injEq, and_true, Bool.true_eq_false, and_false, true_iff, or_false] at c ⊢; omega
      refine ⟨_, _, append h1 (.cons (q h4) (.update _ (.set (j, false) 0)) (.cons ?_ (.update _ (.remove (j, true))) (.nil ?_))), h2, h3, ?_⟩
      · intro i hi
        show (s.map.set (j, false) 0).get (i, true) ≠ none ∨ (s.map.set (j, false) 0).get (i, false) ≠ none
        rw [k1, k1]
        by_cases c : j ≤ i
        · exact .inl ⟨hi, .inl (by simp [c])⟩
        · exact .inr ⟨hi, .inl (by simp [c])⟩
      · exact q (j := j + 1) nxt
      · exact nxt
  obtain ⟨ls, s, h1, h2, h3, h4⟩ := move n (Nat.le_refl _)
  have e0 := moved_empty hm false (by intro i; simp)
  have e1 := moved_empty h4 true (by intro i; simp)
  obtain ⟨sm, sn, ss⟩ := s
  dsimp only at h2 h3
  subst h2 h3
  have v0 : CountStep (countStart m) (.visit 0) { map := m, next := 1, sum := 0 } := by
    have := CountStep.visit (countStart m) (by show 0 < m.shards.length; rw [hm.two]; omega)
    have e : (countStart m).sum + ((countStart m).map.shard (countStart m).next).length = 0 := by
      show 0 + (m.shard 0).length = 0
      simpa using e0
    rw [e] at this
    exact this
  refine ⟨m, hist, _, _, hs, .cons (q hm) v0 (append h1 (.cons (q h4) (.visit _ (by show 1 < sm.shards.length; rw [h4.two]; omega)) (.nil (q h4)))), ?_, ?_⟩
  · show 1 + 1 = sm.shards.length
    rw [h4.two]
  · show 0 + (sm.shard 1).length = 0
    simpa using e1

end Zinx.Props
