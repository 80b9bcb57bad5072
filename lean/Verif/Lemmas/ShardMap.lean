import Verif.Spec.ShardMap

/-! # Facts about the sharded map -/

set_option linter.unusedSectionVars false

namespace Zinx.ShardMap

open Zinx Zinx.Spec.ShardMap

section
variable {K V : Type} [DecidableEq K]

/-! ## Go maps -/

/-- Each key at most once. -/
def KeysNodup (m : GoMap K V) : Prop := (m.map (·.1)).Nodup

theorem keysNodup_iff (m : GoMap K V) : KeysNodup m ↔ m.Pairwise fun x y => x.1 ≠ y.1 := by
  unfold KeysNodup List.Nodup
  rw [List.pairwise_map]

theorem mem_of_lookup {m : GoMap K V} {k : K} {v : V} (h : lookup m k = some v) : (k, v) ∈ m := by
  unfold lookup at h
  cases hf : m.find? (fun x => x.1 = k) with
  | none => rw [hf] at h; simp at h
  | some x =>
    rw [hf] at h
    have hm := List.mem_of_find?_eq_some hf
    have hp := List.find?_some hf
    simp at h hp
    obtain ⟨a, b⟩ := x
    simp at h hp
    subst h hp
    exact hm

theorem lookup_of_mem {m : GoMap K V} (hn : KeysNodup m) {k : K} {v : V} (h : (k, v) ∈ m) : lookup m k = some v := by
  rw [keysNodup_iff] at hn
  induction m with
  | nil => simp at h
  | cons x m ih =>
    rw [List.pairwise_cons] at hn
    unfold lookup
    rw [List.find?_cons]
    rcases List.mem_cons.mp h with h | h
    · subst h; simp
    · have : x.1 ≠ k := hn.1 _ h
      simp only [this, decide_false]
      exact ih hn.2 h

theorem lookup_iff {m : GoMap K V} (hn : KeysNodup m) {k : K} {v : V} : lookup m k = some v ↔ (k, v) ∈ m :=
  ⟨mem_of_lookup, lookup_of_mem hn⟩

theorem lookup_nil (k : K) : lookup ([] : GoMap K V) k = none := rfl

theorem lookup_delete (m : GoMap K V) (k k' : K) : lookup (delete m k) k' = if k' = k then none else lookup m k' := by
  induction m with
  | nil => simp [delete, lookup]
  | cons x m ih =>
    unfold delete at ih ⊢
    rw [List.filter_cons]
    by_cases hx : x.1 = k
    · simp only [hx, ne_eq, not_true_eq_false, decide_false, Bool.false_eq_true, ↓reduceIte]
      rw [ih]
      by_cases hk : k' = k
      · simp [hk]
      · simp only [hk, ↓reduceIte]
        unfold lookup
        have : ¬ (x.1 = k') := by rw [hx]; exact fun e => hk e.symm
        rw [List.find?_cons]; simp [this]
    · simp only [ne_eq, hx, not_false_eq_true, decide_true, ↓reduceIte]
      by_cases hk : x.1 = k'
      · have : k' ≠ k := by rw [← hk]; exact hx
        simp only [this, ↓reduceIte]
        unfold lookup
        rw [List.find?_cons, List.find?_cons]; simp [hk]
      · unfold lookup at ih ⊢
        rw [List.find?_cons, List.find?_cons]
        simp only [hk, decide_false]
        exact ih

theorem lookup_assign (m : GoMap K V) (k : K) (v : V) (k' : K) : lookup (assign m k v) k' = if k' = k then some v else lookup m k' := by
  by_cases h : k' = k
  · subst h; simp [assign, lookup]
  · have := lookup_delete m k k'
    simp only [h, ↓reduceIte] at this ⊢
    rw [← this]
    unfold assign lookup
    rw [List.find?_cons]
    have h' : ¬ (k = k') := fun e => h e.symm
    simp [h']

theorem keysNodup_delete {m : GoMap K V} (h : KeysNodup m) (k : K) : KeysNodup (delete m k) := by
  rw [keysNodup_iff] at h ⊢
  exact h.filter _

theorem keysNodup_assign {m : GoMap K V} (h : KeysNodup m) (k : K) (v : V) : KeysNodup (assign m k v) := by
  have hd := keysNodup_delete h k
  rw [keysNodup_iff] at hd ⊢
  unfold assign
  rw [List.pairwise_cons]
  refine ⟨?_, hd⟩
  intro x hx
  unfold delete at hx
  have := (List.mem_filter.mp hx).2
  simp at this
  exact fun e => this e.symm

theorem mem_delete {m : GoMap K V} {k : K} {x : K × V} : x ∈ delete m k ↔ x ∈ m ∧ x.1 ≠ k := by
  unfold delete
  rw [List.mem_filter]; simp

theorem mem_assign {m : GoMap K V} {k : K} {v : V} {x : K × V} : x ∈ assign m k v ↔ x = (k, v) ∨ (x ∈ m ∧ x.1 ≠ k) := by
  unfold assign
  rw [List.mem_cons, mem_delete]

/-! ## Well-formed sharded maps -/

/-- Every key is in its shard, each once; the number of shards is not a multiple of 2^32. -/
structure Wf (s : Shards K V) : Prop where
  size : s.shards.length % 4294967296 ≠ 0
  place : ∀ i k v, (k, v) ∈ s.shard i → s.index k = i
  nodup : ∀ i, KeysNodup (s.shard i)

theorem Wf.index_lt {s : Shards K V} (h : s.shards.length % 4294967296 ≠ 0) (k : K) : s.index k < s.shards.length := by
  unfold Shards.index
  rw [UInt32.toNat_mod, UInt32.toNat_ofNat']
  have hp : 0 < s.shards.length % 2 ^ 32 := by omega
  have h1 := Nat.mod_lt (s.hash k).toNat hp
  have h2 : s.shards.length % 2 ^ 32 ≤ s.shards.length := Nat.mod_le _ _
  omega

theorem put_index (s : Shards K V) (i : Nat) (m : GoMap K V) (k : K) : (s.put i m).index k = s.index k := by
  simp [Shards.put, Shards.index]

theorem put_length (s : Shards K V) (i : Nat) (m : GoMap K V) : (s.put i m).shards.length = s.shards.length := by
  simp [Shards.put]

theorem put_shard (s : Shards K V) {i : Nat} (hi : i < s.shards.length) (m : GoMap K V) (j : Nat) :
    (s.put i m).shard j = if j = i then m else s.shard j := by
  unfold Shards.put Shards.shard
  dsimp only
  rw [List.getElem?_set]
  by_cases h : i = j
  · subst h; simp [hi]
  · have h' : ¬ j = i := fun e => h e.symm
    simp [h, h']

theorem create_wf (hash : K → UInt32) (n : Nat) (h : n % 4294967296 ≠ 0) : Wf (create V hash n) := by
  have e : ∀ i, (create V hash n).shard i = [] := by
    intro i
    unfold create Shards.shard
    dsimp only
    rw [List.getElem?_replicate]
    by_cases hi : i < n <;> simp [hi]
  refine ⟨by simpa [create] using h, ?_, ?_⟩
  · intro i k v hm; rw [e] at hm; simp at hm
  · intro i; rw [e]; exact List.nodup_nil

theorem create_get (hash : K → UInt32) (n : Nat) (k : K) : (create V hash n).get k = none := by
  unfold Shards.get create Shards.shard
  dsimp only
  rw [List.getElem?_replicate]
  split <;> rfl

theorem put_wf {s : Shards K V} (h : Wf s) {i : Nat} {m : GoMap K V} (hi : i < s.shards.length) (hm : KeysNodup m)
    (hp : ∀ k v, (k, v) ∈ m → s.index k = i) : Wf (s.put i m) := by
  refine ⟨by rw [put_length]; exact h.size, ?_, ?_⟩
  · intro j k v hj
    rw [put_index]
    rw [put_shard s hi] at hj
    by_cases e : j = i
    · subst e; simp at hj; exact hp k v hj
    · simp [e] at hj; exact h.place j k v hj
  · intro j
    rw [put_shard s hi]
    split
    · exact hm
    · exact h.nodup j

theorem get_put {s : Shards K V} {i : Nat} (hi : i < s.shards.length) (m : GoMap K V) (k : K) :
    (s.put i m).get k = if s.index k = i then lookup m k else s.get k := by
  unfold Shards.get
  rw [put_index, put_shard s hi]
  split <;> rfl

theorem set_wf {s : Shards K V} (h : Wf s) (k : K) (v : V) : Wf (s.set k v) := by
  refine put_wf h (Wf.index_lt h.size k) (keysNodup_assign (h.nodup _) k v) ?_
  intro k' v' hm
  rcases mem_assign.mp hm with e | ⟨e, _⟩
  · cases e; rfl
  · exact h.place _ _ _ e

theorem remove_wf {s : Shards K V} (h : Wf s) (k : K) : Wf (s.remove k) := by
  refine put_wf h (Wf.index_lt h.size k) (keysNodup_delete (h.nodup _) k) ?_
  intro k' v' hm
  exact h.place _ _ _ (mem_delete.mp hm).1

theorem get_set {s : Shards K V} (h : Wf s) (k : K) (v : V) (k' : K) : (s.set k v).get k' = if k' = k then some v else s.get k' := by
  unfold Shards.set
  rw [get_put (Wf.index_lt h.size k), lookup_assign]
  by_cases e : k' = k
  · subst e; simp
  · simp only [e, ↓reduceIte]
    split
    · rename_i e'; unfold Shards.get; rw [e']
    · rfl

theorem get_remove {s : Shards K V} (h : Wf s) (k : K) (k' : K) : (s.remove k).get k' = if k' = k then none else s.get k' := by
  unfold Shards.remove
  rw [get_put (Wf.index_lt h.size k), lookup_delete]
  by_cases e : k' = k
  · subst e; simp
  · simp only [e, ↓reduceIte]
    split
    · rename_i e'; unfold Shards.get; rw [e']
    · rfl

/-! ## Entries -/

theorem mem_entries {s : Shards K V} {x : K × V} : x ∈ s.entries ↔ ∃ i, i < s.shards.length ∧ x ∈ s.shard i := by
  unfold Shards.entries Shards.shard
  rw [List.mem_flatten]
  constructor
  · rintro ⟨l, hl, hx⟩
    obtain ⟨i, hi, e⟩ := List.getElem_of_mem hl
    refine ⟨i, hi, ?_⟩
    rw [List.getElem?_eq_getElem hi, e]; exact hx
  · rintro ⟨i, hi, hx⟩
    rw [List.getElem?_eq_getElem hi] at hx
    exact ⟨_, List.getElem_mem hi, hx⟩

theorem mem_entries_iff {s : Shards K V} (h : Wf s) {k : K} {v : V} : (k, v) ∈ s.entries ↔ s.get k = some v := by
  rw [mem_entries]
  unfold Shards.get
  constructor
  · rintro ⟨i, _, hx⟩
    rw [h.place i k v hx]
    exact lookup_of_mem (h.nodup i) hx
  · intro hg
    exact ⟨_, Wf.index_lt h.size k, mem_of_lookup hg⟩

theorem entries_nodup {s : Shards K V} (h : Wf s) : KeysNodup s.entries := by
  rw [keysNodup_iff]
  unfold Shards.entries
  rw [List.pairwise_flatten]
  constructor
  · intro l hl
    obtain ⟨i, hi, e⟩ := List.getElem_of_mem hl
    have := h.nodup i
    unfold Shards.shard at this
    rw [List.getElem?_eq_getElem hi, e] at this
    exact (keysNodup_iff l).mp this
  · rw [List.pairwise_iff_getElem]
    intro i j hi hj hij x hx y hy e
    have h1 := h.place i x.1 x.2 (by unfold Shards.shard; rw [List.getElem?_eq_getElem hi]; exact hx)
    have h2 := h.place j y.1 y.2 (by unfold Shards.shard; rw [List.getElem?_eq_getElem hj]; exact hy)
    rw [e] at h1
    omega

theorem entries_lists {s : Shards K V} (h : Wf s) {order : List (K × V)} (hp : order.Perm s.entries) : ListsEntries s.get order := by
  constructor
  · exact (hp.map _).nodup_iff.mpr (entries_nodup h)
  · intro k v
    rw [hp.mem_iff]
    exact mem_entries_iff h

theorem lists_keys {m : Map K V} {l : List (K × V)} (h : ListsEntries m l) : ListsKeys m (l.map (·.1)) := by
  refine ⟨h.1, ?_⟩
  intro k
  rw [List.mem_map]
  constructor
  · rintro ⟨x, hx, rfl⟩
    rw [(h.2 x.1 x.2).mp hx]; simp
  · intro hk
    cases e : m k with
    | none => exact absurd e hk
    | some v => exact ⟨(k, v), (h.2 k v).mpr e, rfl⟩

theorem count_eq (s : Shards K V) : s.count = s.entries.length := by
  unfold Shards.count Shards.entries
  rw [List.length_flatten]

theorem count_size {s : Shards K V} (h : Wf s) : HasSize s.get s.count := by
  refine ⟨_, lists_keys (entries_lists h (List.Perm.refl _)), ?_⟩
  rw [count_eq, List.length_map]

/-- A map has only one size. -/
theorem size_unique {m : Map K V} {a b : Nat} (h1 : HasSize m a) (h2 : HasSize m b) : a = b := by
  obtain ⟨l1, ⟨n1, k1⟩, rfl⟩ := h1
  obtain ⟨l2, ⟨n2, k2⟩, rfl⟩ := h2
  have p : l1.Perm l2 := by
    rw [List.perm_iff_count]
    intro a
    rw [List.Nodup.count n1, List.Nodup.count n2]
    by_cases h : a ∈ l1
    · have : a ∈ l2 := (k2 a).mpr ((k1 a).mp h)
      simp [h, this]
    · have : a ∉ l2 := fun e => h ((k1 a).mpr ((k2 a).mp e))
      simp [h, this]
  exact p.length_eq

theorem items_eq {m : Map K V} {order : List (K × V)} (h : ListsEntries m order) : ListsEntries m (items order) := by
  have key : ∀ (l : List (K × V)) (a : GoMap K V), (l.map (·.1)).Nodup → KeysNodup a → (∀ x ∈ a, x.1 ∉ l.map (·.1)) →
      KeysNodup (l.foldl (fun m x => assign m x.1 x.2) a) ∧
      ∀ x, x ∈ l.foldl (fun m x => assign m x.1 x.2) a ↔ x ∈ a ∨ x ∈ l := by
    intro l
    induction l with
    | nil => intro a _ ha _; exact ⟨ha, fun x => by simp⟩
    | cons y l ih =>
      intro a hn ha hd
      rw [List.map_cons, List.nodup_cons] at hn
      have hd' : ∀ x ∈ assign a y.1 y.2, x.1 ∉ l.map (·.1) := by
        intro x hx
        rcases mem_assign.mp hx with e | ⟨e, _⟩
        · rw [e]; exact hn.1
        · have := hd x e
          rw [List.map_cons, List.mem_cons] at this
          exact fun c => this (.inr c)
      obtain ⟨i1, i2⟩ := ih (assign a y.1 y.2) hn.2 (keysNodup_assign ha _ _) hd'
      rw [List.foldl_cons]
      refine ⟨i1, ?_⟩
      intro x
      rw [i2, mem_assign, List.mem_cons]
      constructor
      · rintro ((e | ⟨e, _⟩) | e)
        · exact .inr (.inl e)
        · exact .inl e
        · exact .inr (.inr e)
      · rintro (e | e | e)
        · refine .inl (.inr ⟨e, ?_⟩)
          have := hd x e
          rw [List.map_cons, List.mem_cons] at this
          exact fun c => this (.inl c)
        · exact .inl (.inl e)
        · exact .inr e
  obtain ⟨a, b⟩ := key order [] h.1 List.nodup_nil (by simp)
  refine ⟨a, ?_⟩
  intro k v
  unfold items
  rw [b]
  simp only [List.not_mem_nil, false_or]
  exact h.2 k v

/-! ## Calls -/

theorem mset_facts (data : GoMap K V) : ∀ (s : Shards K V), Wf s → (data.map (·.1)).Nodup →
    Wf (s.mset data) ∧ (∀ k v, (k, v) ∈ data → (s.mset data).get k = some v) ∧ (∀ k, k ∉ data.map (·.1) → (s.mset data).get k = s.get k) := by
  induction data with
  | nil => intro s h _; exact ⟨h, by simp, fun _ _ => rfl⟩
  | cons x data ih =>
    intro s h hn
    rw [List.map_cons, List.nodup_cons] at hn
    obtain ⟨a, b, c⟩ := ih (s.set x.1 x.2) (set_wf h _ _) hn.2
    refine ⟨a, ?_, ?_⟩
    · intro k v hm
      rcases List.mem_cons.mp hm with e | e
      · have := c k (by rw [← e] at hn; exact hn.1)
        show ((s.set x.1 x.2).mset data).get k = some v
        rw [this, ← e, get_set h]; simp
      · exact b k v e
    · intro k hk
      rw [List.map_cons, List.mem_cons] at hk
      have := c k (fun e => hk (.inr e))
      show ((s.set x.1 x.2).mset data).get k = s.get k
      rw [this, get_set h]
      have : ¬ k = x.1 := fun e => hk (.inl e)
      simp [this]

theorem clear_facts (order : List (K × V)) : ∀ (s : Shards K V), Wf s →
    Wf (s.clear order) ∧ ∀ k, (s.clear order).get k = if k ∈ order.map (·.1) then none else s.get k := by
  induction order with
  | nil => intro s h; exact ⟨h, fun _ => by simp [Shards.clear]⟩
  | cons x order ih =>
    intro s h
    obtain ⟨a, b⟩ := ih (s.remove x.1) (remove_wf h _)
    refine ⟨a, ?_⟩
    intro k
    show ((s.remove x.1).clear order).get k = _
    rw [b, get_remove h, List.map_cons]
    by_cases h1 : k ∈ order.map (·.1)
    · have : k ∈ x.1 :: order.map (·.1) := List.mem_cons_of_mem _ h1
      rw [if_pos h1, if_pos this]
    · by_cases h2 : k = x.1
      · have : k ∈ x.1 :: order.map (·.1) := by rw [h2]; exact List.mem_cons_self
        rw [if_neg h1, if_pos h2, if_pos this]
      · have : k ∉ x.1 :: order.map (·.1) := by rw [List.mem_cons]; exact fun e => e.elim h2 h1
        rw [if_neg h1, if_neg h2, if_neg this]

theorem call_spec {s t : Shards K V} {l : Op K V × Res K V} (h : Wf s) (hc : Zinx.ShardMap.Call s l t) :
    Wf t ∧ Zinx.Spec.ShardMap.Call s.get l t.get := by
  have setTo : ∀ k (v : V), SetTo s.get (s.set k v).get k (some v) := by
    intro k v
    refine ⟨by rw [get_set h]; simp, ?_⟩
    intro k' e; rw [get_set h]; simp [e]
  have rmTo : ∀ k, SetTo s.get (s.remove k).get k none := by
    intro k
    refine ⟨by rw [get_remove h]; simp, ?_⟩
    intro k' e; rw [get_remove h]; simp [e]
  cases hc with
  | set k v => exact ⟨set_wf h k v, .set (setTo k v)⟩
  | setNX k v =>
    unfold Shards.setNX
    cases e : lookup (s.shard (s.index k)) k with
    | none => exact ⟨set_wf h k v, .setNXnew e (setTo k v)⟩
    | some w => exact ⟨h, .setNXold (by show lookup (s.shard (s.index k)) k ≠ none; rw [e]; simp)⟩
  | mset data hd =>
    obtain ⟨a, b, c⟩ := mset_facts data s h hd
    exact ⟨a, .mset b c⟩
  | get k => exact ⟨h, .get⟩
  | has k =>
    refine ⟨h, ?_⟩
    unfold Shards.has
    cases e : lookup (s.shard (s.index k)) k with
    | none => exact .hasNo e
    | some w => exact .hasYes (by show lookup (s.shard (s.index k)) k ≠ none; rw [e]; simp)
  | remove k => exact ⟨remove_wf h k, .remove (rmTo k)⟩
  | removeCb k cb =>
    have eg : s.get k = lookup (s.shard (s.index k)) k := rfl
    unfold Shards.removeCb
    dsimp only
    rw [← eg]
    cases hcb : cb k (s.get k) with
    | false =>
      simp only [Bool.false_eq_true, false_and, ↓reduceIte]
      exact ⟨h, .removeCbNo hcb⟩
    | true =>
      cases e : s.get k with
      | none =>
        rw [e] at hcb
        simp only [Option.isSome_none, Bool.false_eq_true, and_false, ↓reduceIte]
        exact ⟨h, .removeCbYes (by rw [e]; exact hcb) ⟨e, fun _ _ => rfl⟩⟩
      | some w =>
        simp only [Option.isSome_some, and_self, ↓reduceIte]
        exact ⟨remove_wf h k, .removeCbYes (by rw [e] at hcb ⊢; exact hcb) (rmTo k)⟩
  | pop k => exact ⟨remove_wf h k, .pop (rmTo k)⟩
  | clear order ho =>
    obtain ⟨a, b⟩ := clear_facts order s h
    refine ⟨a, ?_⟩
    have : (s.clear order).get = fun _ => none := by
      funext k
      rw [b]
      split
      · rfl
      · rename_i hk
        have := (lists_keys (entries_lists h ho)).2 k
        exact Classical.byContradiction fun c => hk (this.mpr c)
    rw [this]
    exact .clear
  | count => exact ⟨h, .count (count_size h)⟩
  | isEmpty =>
    refine ⟨h, ?_⟩
    obtain ⟨l, hl, hn⟩ := count_size h
    unfold Shards.isEmpty
    cases l with
    | nil =>
      rw [← hn]
      exact .isEmptyYes fun k => Classical.byContradiction fun c => by have := (hl.2 k).mpr c; simp at this
    | cons k l =>
      rw [← hn]
      exact .isEmptyNo ((hl.2 k).mp List.mem_cons_self)
  | keys order ho => exact ⟨h, .keys (lists_keys (entries_lists h ho))⟩
  | items order ho => exact ⟨h, .items (items_eq (entries_lists h ho))⟩
  | iterate order ho => exact ⟨h, .iterate (entries_lists h ho)⟩

theorem calls_spec {s t : Shards K V} {ls : List (Op K V × Res K V)} (h : Wf s) (hc : Steps Zinx.ShardMap.Call s ls t) :
    Wf t ∧ Steps Zinx.Spec.ShardMap.Call s.get ls t.get := by
  induction hc with
  | nil => exact ⟨h, .nil _⟩
  | cons h1 _ ih =>
    obtain ⟨a, b⟩ := call_spec h h1
    obtain ⟨c, d⟩ := ih a
    exact ⟨c, .cons b d⟩

/-! ## Scans -/

theorem update_wf {s : Shards K V} (h : Wf s) (u : Update K V) : Wf (s.update u) := by
  cases u with
  | set k v => exact set_wf h k v
  | remove k => exact remove_wf h k

theorem update_index (s : Shards K V) (u : Update K V) (k : K) : (s.update u).index k = s.index k := by
  cases u <;> exact put_index _ _ _ _

theorem update_length (s : Shards K V) (u : Update K V) : (s.update u).shards.length = s.shards.length := by
  cases u <;> exact put_length _ _ _

/-- What holds during any scan. -/
structure ScanInv (s : Scan K V) : Prop where
  wf : Wf s.map
  left : s.left.Nodup
  out : KeysNodup s.out
  done : ∀ k v, (k, v) ∈ s.out → s.map.index k ∉ s.left

theorem scanStart_inv {m : Shards K V} (h : Wf m) : ScanInv (scanStart m) :=
  ⟨h, List.nodup_range, List.nodup_nil, by intro k v hm; simp [scanStart] at hm⟩

theorem scanStep_inv {s t : Scan K V} {a : ScanAct K V} (h : ScanInv s) (hs : ScanStep s a t) : ScanInv t := by
  cases hs with
  | update u =>
    refine ⟨update_wf h.wf u, h.left, h.out, ?_⟩
    intro k v hm
    dsimp only
    rw [update_index]
    exact h.done k v hm
  | visit i hi es he =>
    refine ⟨h.wf, h.left.erase _, ?_, ?_⟩
    · rw [keysNodup_iff]
      dsimp only
      rw [List.pairwise_append]
      refine ⟨(keysNodup_iff _).mp h.out, ?_, ?_⟩
      · rw [← keysNodup_iff]
        exact (he.map (Prod.fst)).nodup_iff.mpr (h.wf.nodup i)
      · intro x hx y hy e
        have h1 := h.done x.1 x.2 hx
        have h2 := h.wf.place i y.1 y.2 (he.mem_iff.mp hy)
        rw [e, h2] at h1
        exact h1 hi
    · intro k v hm
      dsimp only at hm ⊢
      rw [List.mem_append] at hm
      rcases hm with hm | hm
      · exact fun c => h.done k v hm (List.mem_of_mem_erase c)
      · have h2 := h.wf.place i k v (he.mem_iff.mp hm)
        rw [h2]
        exact fun c => (List.Nodup.mem_erase_iff h.left).mp c |>.1 rfl

theorem scan_inv {s t : Scan K V} {ls : List (ScanAct K V)} (h : ScanInv s) (hs : Steps ScanStep s ls t) : ScanInv t :=
  Steps.invariant (P := ScanInv) (fun _ _ _ h1 h2 => scanStep_inv h1 h2) hs h

theorem scan_sees {Q : Scan K V → Prop} {k : K} {v : V} (hQ : ∀ s, Q s → s.map.get k = some v) {s t : Scan K V} {ls : List (ScanAct K V)}
    (hs : StepsAll ScanStep Q s ls t) (h0 : s.map.index k ∈ s.left ∨ (k, v) ∈ s.out) : t.map.index k ∈ t.left ∨ (k, v) ∈ t.out := by
  refine StepsAll.invariant (P := fun s => s.map.index k ∈ s.left ∨ (k, v) ∈ s.out) ?_ hs h0
  intro s l t hq hp hst
  cases hst with
  | update u => dsimp only; rw [update_index]; exact hp
  | visit i hi es he =>
    dsimp only
    rcases hp with hp | hp
    · by_cases e : s.map.index k = i
      · right
        rw [List.mem_append]
        right
        rw [he.mem_iff, ← e]
        exact mem_of_lookup (hQ s hq)
      · left
        exact (List.mem_erase_of_ne e).mpr hp
    · exact .inr (List.mem_append_left _ hp)

theorem scan_only {Q : Scan K V → Prop} {k : K} {v : V} (hQ : ∀ s, Q s → s.map.get k ≠ some v) {s t : Scan K V} {ls : List (ScanAct K V)}
    (hs : StepsAll ScanStep Q s ls t) (hi : ScanInv s) (h0 : (k, v) ∉ s.out) : (k, v) ∉ t.out := by
  refine (StepsAll.invariant (P := fun s => ScanInv s ∧ (k, v) ∉ s.out) ?_ hs ⟨hi, h0⟩).2
  intro s l t hq hp hst
  refine ⟨scanStep_inv hp.1 hst, ?_⟩
  cases hst with
  | update u => exact hp.2
  | visit i hi es he =>
    dsimp only
    rw [List.mem_append]
    intro c
    refine c.elim hp.2 fun c => hQ s hq ?_
    have hm := he.mem_iff.mp c
    have := hp.1.wf.place i k v hm
    unfold Shards.get
    rw [this]
    exact lookup_of_mem (hp.1.wf.nodup i) hm

/-! ## Counting -/

theorem delete_absent {m : GoMap K V} {k : K} (h : ∀ x ∈ m, x.1 ≠ k) : delete m k = m := by
  unfold delete
  rw [List.filter_eq_self]
  intro x hx
  simpa using h x hx

theorem length_delete {m : GoMap K V} (h : KeysNodup m) (k : K) : (delete m k).length ≤ m.length ∧ m.length ≤ (delete m k).length + 1 := by
  refine ⟨List.length_filter_le _ _, ?_⟩
  rw [keysNodup_iff] at h
  induction m with
  | nil => simp
  | cons x m ih =>
    rw [List.pairwise_cons] at h
    by_cases e : x.1 = k
    · have : delete (x :: m) k = m := by
        have d := delete_absent (m := m) (k := k) (by intro y hy; rw [← e]; exact fun c => h.1 y hy c.symm)
        unfold delete at d ⊢
        rw [List.filter_cons]; simp only [e, ne_eq, not_true_eq_false, decide_false, Bool.false_eq_true, ↓reduceIte]; exact d
      rw [this]; simp
    · have : delete (x :: m) k = x :: delete m k := by
        unfold delete; rw [List.filter_cons]; simp [e]
      rw [this]
      have := ih h.2
      simp only [List.length_cons]
      omega

theorem length_assign {m : GoMap K V} (h : KeysNodup m) (k : K) (v : V) :
    m.length ≤ (assign m k v).length ∧ (assign m k v).length ≤ m.length + 1 := by
  have := length_delete h k
  unfold assign
  rw [List.length_cons]
  omega

/-- Entries in the shards from `i` on. -/
def Shards.rest (s : Shards K V) (i : Nat) : Nat := ((s.shards.drop i).map (·.length)).sum

theorem rest_zero (s : Shards K V) : s.rest 0 = s.count := rfl

theorem rest_end (s : Shards K V) {i : Nat} (h : s.shards.length ≤ i) : s.rest i = 0 := by
  unfold Shards.rest
  rw [List.drop_of_length_le h]; rfl

theorem rest_next (s : Shards K V) {i : Nat} (h : i < s.shards.length) : s.rest i = (s.shard i).length + s.rest (i + 1) := by
  unfold Shards.rest Shards.shard
  rw [List.drop_eq_getElem_cons h, List.getElem?_eq_getElem h, List.map_cons, List.sum_cons]
  rfl

theorem rest_put (s : Shards K V) (i : Nat) (m : GoMap K V) {j : Nat} (hj : j < s.shards.length) :
    (j < i → (s.put j m).rest i = s.rest i) ∧ (i ≤ j → (s.put j m).rest i + (s.shard j).length = s.rest i + m.length) := by
  constructor
  · intro h
    unfold Shards.rest Shards.put
    dsimp only
    rw [List.drop_set_of_lt h]
  · intro h
    obtain ⟨d, rfl⟩ : ∃ d, j = i + d := ⟨j - i, by omega⟩
    clear h
    induction d generalizing i with
    | zero =>
      have hi : i < (s.put (i + 0) m).shards.length := by rw [put_length]; omega
      have hi' : i < s.shards.length := by omega
      rw [rest_next _ hi, rest_next s hi', put_shard s hj]
      have : (s.put (i + 0) m).rest (i + 1) = s.rest (i + 1) := by
        unfold Shards.rest Shards.put
        dsimp only
        rw [List.drop_set_of_lt (by omega)]
      rw [this]
      simp
      omega
    | succ d ih =>
      have hi : i < (s.put (i + (d + 1)) m).shards.length := by rw [put_length]; omega
      have hi' : i < s.shards.length := by omega
      have e : i + (d + 1) = (i + 1) + d := by omega
      have := ih (i + 1) (by omega)
      rw [rest_next _ hi, rest_next s hi', put_shard s hj]
      have hne : ¬ i = i + (d + 1) := by omega
      rw [if_neg hne]
      rw [e]
      omega

theorem rest_set {s : Shards K V} (h : Wf s) (k : K) (v : V) (i : Nat) : s.rest i ≤ (s.set k v).rest i ∧ (s.set k v).rest i ≤ s.rest i + 1 := by
  have hj := Wf.index_lt h.size k
  obtain ⟨a, b⟩ := rest_put s i (assign (s.shard (s.index k)) k v) hj
  have l := length_assign (h.nodup (s.index k)) k v
  unfold Shards.set
  by_cases c : s.index k < i
  · rw [a c]; omega
  · have := b (by omega); omega

theorem rest_remove {s : Shards K V} (h : Wf s) (k : K) (i : Nat) : (s.remove k).rest i ≤ s.rest i ∧ s.rest i ≤ (s.remove k).rest i + 1 := by
  have hj := Wf.index_lt h.size k
  obtain ⟨a, b⟩ := rest_put s i (delete (s.shard (s.index k)) k) hj
  have l := length_delete (h.nodup (s.index k)) k
  unfold Shards.remove
  by_cases c : s.index k < i
  · rw [a c]; omega
  · have := b (by omega); omega

theorem counting_wf {s t : Counting K V} {ls : List (ScanAct K V)} (h : Wf s.map) (hs : Steps CountStep s ls t) : Wf t.map := by
  refine Steps.invariant (P := fun s : Counting K V => Wf s.map) ?_ hs h
  intro s l t hp hst
  cases hst with
  | update u => exact update_wf hp u
  | visit _ => exact hp

/-- Visits without updates in between. -/
theorem visits {Q : Shards K V → Prop} (m : Shards K V) (hq : Q m) (d : Nat) : ∀ (i sum : Nat), i + d ≤ m.shards.length →
    ∃ ls, StepsAll CountStep (fun s => Q s.map) { map := m, next := i, sum := sum } ls
      { map := m, next := i + d, sum := sum + (m.rest i - m.rest (i + d)) } := by
  induction d with
  | zero => intro i sum _; exact ⟨[], by rw [Nat.add_zero, Nat.sub_self, Nat.add_zero]; exact .nil hq⟩
  | succ d ih =>
    intro i sum h
    have hi : i < m.shards.length := by omega
    obtain ⟨ls, hl⟩ := ih (i + 1) (sum + (m.shard i).length) (by omega)
    refine ⟨.visit i :: ls, .cons hq (.visit _ hi) ?_⟩
    have e1 : i + 1 + d = i + (d + 1) := by omega
    have e2 : sum + (m.shard i).length + (m.rest (i + 1) - m.rest (i + 1 + d)) = sum + (m.rest i - m.rest (i + (d + 1))) := by
      have mono : ∀ e j, j + e ≤ m.shards.length → m.rest (j + e) ≤ m.rest j := by
        intro e
        induction e with
        | zero => intro j _; exact Nat.le_refl _
        | succ e ihe =>
          intro j hj
          have a := ihe (j + 1) (by omega)
          have b := rest_next m (i := j) (by omega)
          have c : j + 1 + e = j + (e + 1) := by omega
          rw [c] at a
          omega
      have a := mono d (i + 1) (by omega)
      have b := rest_next m hi
      rw [e1] at a ⊢
      omega
    rw [e2, e1] at hl
    exact hl

/-- Only additions: what is counted so far plus what is ahead is at most the size and never shrinks. -/
theorem counting_up {s t : Counting K V} {ls : List (ScanAct K V)} (h : Wf s.map) (hs : Steps CountStep s ls t)
    (hu : ∀ a ∈ ls, ∀ k, a ≠ .update (.remove k)) (h0 : s.sum + s.map.rest s.next ≤ s.map.count) :
    s.sum + s.map.rest s.next ≤ t.sum + t.map.rest t.next ∧ t.sum + t.map.rest t.next ≤ t.map.count := by
  induction hs with
  | nil => exact ⟨Nat.le_refl _, h0⟩
  | @cons s m t l ls h1 _ ih =>
    have hu' := fun a ha => hu a (List.mem_cons_of_mem _ ha)
    have hu1 := hu _ List.mem_cons_self
    cases h1 with
    | update u =>
      cases u with
      | remove k => exact absurd rfl (hu1 k)
      | set k v =>
        have r1 := rest_set h k v s.next
        have j := Wf.index_lt h.size k
        have r0 : s.sum + (s.map.set k v).rest s.next ≤ (s.map.set k v).count := by
          obtain ⟨a, b⟩ := rest_put s.map s.next (assign (s.map.shard (s.map.index k)) k v) j
          obtain ⟨_, b0⟩ := rest_put s.map 0 (assign (s.map.shard (s.map.index k)) k v) j
          have l := length_assign (h.nodup (s.map.index k)) k v
          have b0 := b0 (Nat.zero_le _)
          rw [rest_zero, rest_zero] at b0
          unfold Shards.set
          by_cases c : s.map.index k < s.next
          · rw [a c]; omega
          · have := b (by omega); omega
        obtain ⟨x, y⟩ := ih (set_wf h k v) hu' r0
        dsimp only [Shards.update] at x y
        omega
    | visit hn =>
      have r := rest_next _ hn
      obtain ⟨x, y⟩ := ih h hu' (by dsimp only; omega)
      dsimp only at x y
      omega

/-- Only removals: what is counted so far plus what is ahead is at least the size and never grows. -/
theorem counting_down {s t : Counting K V} {ls : List (ScanAct K V)} (h : Wf s.map) (hs : Steps CountStep s ls t)
    (hu : ∀ a ∈ ls, ∀ k v, a ≠ .update (.set k v)) (h0 : s.map.count ≤ s.sum + s.map.rest s.next) :
    t.sum + t.map.rest t.next ≤ s.sum + s.map.rest s.next ∧ t.map.count ≤ t.sum + t.map.rest t.next := by
  induction hs with
  | nil => exact ⟨Nat.le_refl _, h0⟩
  | @cons s m t l ls h1 _ ih =>
    have hu' := fun a ha => hu a (List.mem_cons_of_mem _ ha)
    have hu1 := hu _ List.mem_cons_self
    cases h1 with
    | update u =>
      cases u with
      | set k v => exact absurd rfl (hu1 k v)
      | remove k =>
        have r1 := rest_remove h k s.next
        have j := Wf.index_lt h.size k
        have r0 : (s.map.remove k).count ≤ s.sum + (s.map.remove k).rest s.next := by
          obtain ⟨a, b⟩ := rest_put s.map s.next (delete (s.map.shard (s.map.index k)) k) j
          obtain ⟨_, b0⟩ := rest_put s.map 0 (delete (s.map.shard (s.map.index k)) k) j
          have l := length_delete (h.nodup (s.map.index k)) k
          have b0 := b0 (Nat.zero_le _)
          rw [rest_zero, rest_zero] at b0
          unfold Shards.remove
          by_cases c : s.map.index k < s.next
          · rw [a c]; omega
          · have := b (by omega); omega
        obtain ⟨x, y⟩ := ih (remove_wf h k) hu' r0
        dsimp only [Shards.update] at x y
        omega
    | visit hn =>
      have r := rest_next _ hn
      obtain ⟨x, y⟩ := ih h hu' (by dsimp only; omega)
      dsimp only at x y
      omega

/-- The size passes through every value on the way up. -/
theorem between_up {s t : Counting K V} {ls : List (ScanAct K V)} (h : Wf s.map) (hs : Steps CountStep s ls t)
    (hu : ∀ a ∈ ls, ∀ k, a ≠ .update (.remove k)) {x : Nat} (h1 : s.map.count ≤ x) (h2 : x ≤ t.map.count) :
    ∃ l1 l2 u, ls = l1 ++ l2 ∧ Steps CountStep s l1 u ∧ Steps CountStep u l2 t ∧ u.map.count = x := by
  induction hs with
  | nil s => exact ⟨[], [], s, rfl, .nil _, .nil _, by omega⟩
  | @cons s m t l ls hst hrest ih =>
    by_cases e : s.map.count = x
    · exact ⟨[], _, s, rfl, .nil _, .cons hst hrest, e⟩
    · have hm : m.map.count ≤ x ∧ Wf m.map := by
        cases hst with
        | update u =>
          cases u with
          | remove k => exact absurd rfl (hu _ List.mem_cons_self k)
          | set k v =>
            have := rest_set h k v 0
            rw [rest_zero, rest_zero] at this
            refine ⟨?_, set_wf h k v⟩
            dsimp only [Shards.update]
            omega
        | visit _ => exact ⟨h1, h⟩
      obtain ⟨l1, l2, u, a, b, c, d⟩ := ih hm.2 (fun a ha => hu a (List.mem_cons_of_mem _ ha)) hm.1 h2
      exact ⟨l :: l1, l2, u, by rw [a]; rfl, .cons hst b, c, d⟩

/-- The size passes through every value on the way down. -/
theorem between_down {s t : Counting K V} {ls : List (ScanAct K V)} (h : Wf s.map) (hs : Steps CountStep s ls t)
    (hu : ∀ a ∈ ls, ∀ k v, a ≠ .update (.set k v)) {x : Nat} (h1 : x ≤ s.map.count) (h2 : t.map.count ≤ x) :
    ∃ l1 l2 u, ls = l1 ++ l2 ∧ Steps CountStep s l1 u ∧ Steps CountStep u l2 t ∧ u.map.count = x := by
  induction hs with
  | nil s => exact ⟨[], [], s, rfl, .nil _, .nil _, by omega⟩
  | @cons s m t l ls hst hrest ih =>
    by_cases e : s.map.count = x
    · exact ⟨[], _, s, rfl, .nil _, .cons hst hrest, e⟩
    · have hm : x ≤ m.map.count ∧ Wf m.map := by
        cases hst with
        | update u =>
          cases u with
          | set k v => exact absurd rfl (hu _ List.mem_cons_self k v)
          | remove k =>
            have := rest_remove h k 0
            rw [rest_zero, rest_zero] at this
            refine ⟨?_, remove_wf h k⟩
            dsimp only [Shards.update]
            omega
        | visit _ => exact ⟨h1, h⟩
      obtain ⟨l1, l2, u, a, b, c, d⟩ := ih hm.2 (fun a ha => hu a (List.mem_cons_of_mem _ ha)) hm.1 h2
      exact ⟨l :: l1, l2, u, by rw [a]; rfl, .cons hst b, c, d⟩

end

end Zinx.ShardMap
