import Verif.Lemmas.ShardMap

/-! # C45, C46 and C47: the sharded map -/

namespace Zinx.Props

open Zinx Zinx.ShardMap Zinx.Spec.ShardMap

section
variable {K V : Type} [DecidableEq K]

/-! ## C45 -/

/-- **C45.** Every history of calls of a sharded map, with all its results, is a history of an ordinary map that ends with the same contents.
Any hash function, any number of shards that is not a multiple of 2^32 (else every access divides by zero, in particular for 0). -/
theorem C45_one_map {hash : K → UInt32} {n : Nat} (hn : n % 4294967296 ≠ 0) {ls : List (Op K V × Res K V)} {s : Shards K V}
    (h : Steps ShardMap.Call (create V hash n) ls s) :
    Steps Spec.ShardMap.Call (fun _ => none) ls s.get := by
  have := (calls_spec (create_wf hash n hn) h).2
  have e : (create V hash n).get = fun _ => none := by funext k; exact create_get hash n k
  rw [e] at this
  exact this

end

/-- A history with the real hash and shard count: keys "1" and "2". -/
example : ∃ s, Steps ShardMap.Call (create Nat fnv32 shardCount)
    [(.set [49] 7, .unit), (.setNX [49] 8, .bool false), (.setNX [50] 9, .bool true), (.count, .nat 2), (.pop [49], .value (some 7)),
     (.has [49], .bool false), (.keys, .keys [[50]])] s := by
  refine ⟨_, .cons (.set _ _ _) (.cons (.setNX _ _ _) (.cons (.setNX _ _ _) (.cons (.count _) (.cons (.pop _ _) (.cons (.has _ _)
    (.cons (.keys _ [([50], 9)] ?_) (.nil _)))))))⟩
  have e : ([([50], 9)] : List (Bytes × Nat)) = Shards.entries (((((create Nat fnv32 shardCount).set [49] 7).setNX [49] 8).2.setNX [50] 9).2.pop [49]).2 := by
    decide +kernel
  rw [← e]

/-! ## C46 -/

section
variable {K V : Type} [DecidableEq K]

/-- **C46 (never twice).** Whatever updates happen during a scan, no key is reported twice. -/
theorem C46_no_key_twice {hash : K → UInt32} {n : Nat} (hn : n % 4294967296 ≠ 0) {hist : List (Op K V × Res K V)} {m : Shards K V}
    (hm : Steps ShardMap.Call (create V hash n) hist m) {ls : List (ScanAct K V)} {s : Scan K V}
    (h : Steps ScanStep (scanStart m) ls s) : (s.out.map (·.1)).Nodup :=
  (scan_inv (scanStart_inv (calls_spec (create_wf hash n hn) hm).1) h).out

/-- **C46 (nothing constant missed).** A key that has one and the same value in every state during the scan is reported with it. -/
theorem C46_reports_constant {hash : K → UInt32} {n : Nat} (hn : n % 4294967296 ≠ 0) {hist : List (Op K V × Res K V)} {m : Shards K V}
    (hm : Steps ShardMap.Call (create V hash n) hist m) {ls : List (ScanAct K V)} {s : Scan K V} {k : K} {v : V}
    (h : StepsAll ScanStep (fun s => s.map.get k = some v) (scanStart m) ls s) (hdone : s.left = []) : (k, v) ∈ s.out := by
  have w := (calls_spec (create_wf hash n hn) hm).1
  have := scan_sees (fun _ h => h) h (.inl (by
    unfold scanStart
    dsimp only
    rw [List.mem_range]
    exact Wf.index_lt w.size k))
  rw [hdone] at this
  simpa using this

/-- **C46 (nothing invented).** What is reported was in the map at some moment during the scan. -/
theorem C46_reports_only_present {hash : K → UInt32} {n : Nat} (hn : n % 4294967296 ≠ 0) {hist : List (Op K V × Res K V)} {m : Shards K V}
    (hm : Steps ShardMap.Call (create V hash n) hist m) {ls : List (ScanAct K V)} {s : Scan K V} {k : K} {v : V}
    (h : StepsAll ScanStep (fun s => s.map.get k ≠ some v) (scanStart m) ls s) : (k, v) ∉ s.out := by
  have w := (calls_spec (create_wf hash n hn) hm).1
  exact scan_only (fun _ h => h) h (scanStart_inv w) (by simp [scanStart])

end

/-- Two shards, identity hash: key 1 is constant, key 0 is removed and added again as the scan passes. -/
example : ∃ m hist ls s, Steps ShardMap.Call (create Nat (fun k : Nat => UInt32.ofNat k) 2) hist m ∧
    StepsAll ScanStep (fun s => s.map.get 1 = some 7) (scanStart m) ls s ∧ s.left = [] ∧ s.out = [(1, 7), (0, 9)] := by
  refine ⟨_, _, _, _, .cons (.set _ 1 7) (.cons (.set _ 0 8) (.nil _)),
    .cons (by decide) (.visit _ 1 (by decide) [(1, 7)] (by decide)) (.cons (by decide) (.update _ (.remove 0)) (.cons (by decide) (.update _ (.set 0 9))
      (.cons (by decide) (.visit _ 0 (by decide) [(0, 9)] (by decide)) (.nil (by decide))))), by decide, by decide⟩

/-! ## C47 -/

section
variable {K V : Type} [DecidableEq K]

/-- **C47 (alone).** `Count` with no update during the call gives the number of keys. -/
theorem C47_exact_partial {hash : K → UInt32} {n : Nat} (hn : n % 4294967296 ≠ 0) {hist : List (Op K V × Res K V)} {m : Shards K V}
    (hm : Steps ShardMap.Call (create V hash n) hist m) {ls : List (ScanAct K V)} {s : Counting K V}
    (h : Steps CountStep (countStart m) ls s) (hdone : s.next = m.shards.length) (hq : ∀ a ∈ ls, ∀ u, a ≠ .update u) :
    HasSize m.get s.sum := by
  have w := (calls_spec (create_wf hash n hn) hm).1
  have z : (countStart m).map.count = (countStart m).sum + (countStart m).map.rest (countStart m).next := by
    show m.count = 0 + m.rest 0
    rw [rest_zero]; omega
  have hmap : s.map = m := by
    refine (Steps.invariant_trace (P := fun ls (s : Counting K V) => (∀ a ∈ ls, ∀ u, a ≠ .update u) → s.map = m) ?_ h (fun _ => rfl)) hq
    intro ls s l t hp hst hl
    cases hst with
    | update u => exact absurd rfl (hl (.update u) (by simp) u)
    | visit _ => exact hp fun a ha => hl a (by simp [ha])
  have a := counting_up w h (fun a ha k => hq a ha _) (by omega)
  have b := counting_down w h (fun a ha k v => hq a ha _) (by omega)
  rw [hmap, rest_end m (by omega)] at a b
  have : (countStart m).sum + (countStart m).map.rest (countStart m).next = m.count := z.symm
  have e : s.sum = m.count := by omega
  rw [e]
  exact count_size w

/-- **C47 (only additions).** If the updates during the call only add or overwrite, the result is the number of keys at some moment of the call. -/
theorem C47_only_additions_partial {hash : K → UInt32} {n : Nat} (hn : n % 4294967296 ≠ 0) {hist : List (Op K V × Res K V)} {m : Shards K V}
    (hm : Steps ShardMap.Call (create V hash n) hist m) {ls : List (ScanAct K V)} {s : Counting K V}
    (h : Steps CountStep (countStart m) ls s) (hdone : s.next = s.map.shards.length) (hq : ∀ a ∈ ls, ∀ k, a ≠ .update (.remove k)) :
    ∃ l1 l2 u, ls = l1 ++ l2 ∧ Steps CountStep (countStart m) l1 u ∧ Steps CountStep u l2 s ∧ HasSize u.map.get s.sum := by
  have w := (calls_spec (create_wf hash n hn) hm).1
  have z : (countStart m).map.count = (countStart m).sum + (countStart m).map.rest (countStart m).next := by
    show m.count = 0 + m.rest 0
    rw [rest_zero]; omega
  have a := counting_up w h hq (by omega)
  rw [rest_end s.map (by omega)] at a
  obtain ⟨l1, l2, u, e, h1, h2, h3⟩ := between_up w h hq (x := s.sum) (by omega) (by omega)
  refine ⟨l1, l2, u, e, h1, h2, ?_⟩
  rw [← h3]
  exact count_size (counting_wf w h1)

/-- **C47 (only removals).** If the updates during the call only remove, the result is the number of keys at some moment of the call. -/
theorem C47_only_removals_partial {hash : K → UInt32} {n : Nat} (hn : n % 4294967296 ≠ 0) {hist : List (Op K V × Res K V)} {m : Shards K V}
    (hm : Steps ShardMap.Call (create V hash n) hist m) {ls : List (ScanAct K V)} {s : Counting K V}
    (h : Steps CountStep (countStart m) ls s) (hdone : s.next = s.map.shards.length) (hq : ∀ a ∈ ls, ∀ k v, a ≠ .update (.set k v)) :
    ∃ l1 l2 u, ls = l1 ++ l2 ∧ Steps CountStep (countStart m) l1 u ∧ Steps CountStep u l2 s ∧ HasSize u.map.get s.sum := by
  have w := (calls_spec (create_wf hash n hn) hm).1
  have z : (countStart m).map.count = (countStart m).sum + (countStart m).map.rest (countStart m).next := by
    show m.count = 0 + m.rest 0
    rw [rest_zero]; omega
  have a := counting_down w h hq (by omega)
  rw [rest_end s.map (by omega)] at a
  obtain ⟨l1, l2, u, e, h1, h2, h3⟩ := between_down w h hq (x := s.sum) (by omega) (by omega)
  refine ⟨l1, l2, u, e, h1, h2, ?_⟩
  rw [← h3]
  exact count_size (counting_wf w h1)

end

/-- **C47 refuted.** With the default hash and shard count: while a connection "2" is added and a connection "1" removed, `Count` returns 0 although
there is a key in the map at every moment (keys "1", "2" are in shards 14 and 13). -/
theorem C47_refuted : ∃ (m : Shards Bytes Nat) (hist : List (Op Bytes Nat × Res Bytes Nat)) (ls : List (ScanAct Bytes Nat)) (s : Counting Bytes Nat),
    Steps ShardMap.Call (create Nat fnv32 shardCount) hist m ∧
    StepsAll CountStep (fun s => s.map.get [49] ≠ none ∨ s.map.get [50] ≠ none) (countStart m) ls s ∧ s.next = s.map.shards.length ∧ s.sum = 0 := by
  have join : ∀ {Q : Counting Bytes Nat → Prop} {a b c : Counting Bytes Nat} {l1 l2 : List (ScanAct Bytes Nat)},
      StepsAll CountStep Q a l1 b → StepsAll CountStep Q b l2 c → StepsAll CountStep Q a (l1 ++ l2) c := by
    intro Q a b c l1 l2 h1 h2
    induction h1 with
    | nil _ => exact h2
    | cons hq hs _ ih => exact .cons hq hs (ih h2)
  let m0 : Shards Bytes Nat := (create Nat fnv32 shardCount).set [49] 7
  let m1 : Shards Bytes Nat := m0.update (.set [50] 8)
  let m2 : Shards Bytes Nat := m1.update (.remove [49])
  let Q : Shards Bytes Nat → Prop := fun m => m.get [49] ≠ none ∨ m.get [50] ≠ none
  have q0 : Q m0 := by decide +kernel
  have q1 : Q m1 := by decide +kernel
  have q2 : Q m2 := by decide +kernel
  obtain ⟨l0, h0⟩ := visits (Q := Q) m0 q0 14 0 0 (by decide +kernel)
  obtain ⟨l2, h2⟩ := visits (Q := Q) m2 q2 18 14 0 (by decide +kernel)
  have e0 : 0 + (m0.rest 0 - m0.rest (0 + 14)) = 0 := by decide +kernel
  have e2 : 0 + (m2.rest 14 - m2.rest (14 + 18)) = 0 := by decide +kernel
  rw [e0] at h0
  rw [e2] at h2
  refine ⟨m0, _, _, _, .cons (.set _ _ _) (.nil _), join h0 (.cons q0 (.update _ (.set [50] 8)) (.cons q1 (.update _ (.remove [49])) h2)), ?_, rfl⟩
  decide +kernel

/-- A call with an addition behind and one ahead of the count. -/
example : ∃ m hist ls s, Steps ShardMap.Call (create Nat (fun k : Nat => UInt32.ofNat k) 2) hist m ∧
    Steps CountStep (countStart m) ls s ∧ s.next = s.map.shards.length ∧ (∀ a ∈ ls, ∀ k, a ≠ .update (.remove k)) ∧ s.sum = 2 ∧ s.map.count = 3 := by
  refine ⟨_, _, _, _, .cons (.set _ 1 7) (.nil _),
    .cons (.visit _ (by decide)) (.cons (.update _ (.set 0 8)) (.cons (.update _ (.set 3 8)) (.cons (.visit _ (by decide)) (.nil _)))), by decide, ?_, by decide, by decide⟩
  intro a ha k e
  subst e
  simp at ha

end Zinx.Props
