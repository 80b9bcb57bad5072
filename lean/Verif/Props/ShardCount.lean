import Verif.Model.ShardCount
import Verif.Lemmas.ShardMap

/-!
# C120: setting `ShardCount` when there are maps
-/

namespace Zinx.Props

open Zinx.ShardMap

variable {K V : Type} [DecidableEq K]

/-- With the count the map was made with, everything is as in C45. -/
theorem indexWith_same {s : Shards K V} (h : Wf s) (k : K) : s.indexWith s.shards.length k = some (s.index k) := by
  have h1 : UInt32.ofNat s.shards.length ≠ 0 := by
    intro e
    have := congrArg UInt32.toNat e
    simp at this
    exact h.size this
  have h2 := Wf.index_lt h.size k
  unfold Shards.index at h2
  unfold Shards.indexWith Shards.index
  rw [if_neg h1, if_pos h2]

theorem partial_wf {s : Shards K V} (h : Wf s) (k : K) (v : V) :
    s.getWith s.shards.length k = some (s.get k) ∧ s.setWith s.shards.length k v = some (s.set k v) ∧ s.removeWith s.shards.length k = some (s.remove k) ∧ s.countWith s.shards.length = some s.count := by
  simp [Shards.getWith, Shards.setWith, Shards.removeWith, indexWith_same h, Shards.countWith, Shards.count, Shards.get, Shards.set, Shards.remove]

theorem put_same (s : Shards K V) (i : Nat) (m : GoMap K V) : (s.put i m).shards.length = s.shards.length ∧ (s.put i m).hash = s.hash := ⟨put_length s i m, rfl⟩

omit [DecidableEq K] in
theorem foldl_same {α : Type} (f : Shards K V → α → Shards K V) (hf : ∀ s a, (f s a).shards.length = s.shards.length ∧ (f s a).hash = s.hash) :
    ∀ (l : List α) (s : Shards K V), (l.foldl f s).shards.length = s.shards.length ∧ (l.foldl f s).hash = s.hash
  | [], _ => ⟨rfl, rfl⟩
  | a :: l, s => by
    have h1 := foldl_same f hf l (f s a)
    have h2 := hf s a
    exact ⟨h1.1.trans h2.1, h1.2.trans h2.2⟩

theorem call_length {s t : Shards K V} {l : Op K V × Res K V} (hc : Zinx.ShardMap.Call s l t) : t.shards.length = s.shards.length ∧ t.hash = s.hash := by
  cases hc with
  | set => exact put_same ..
  | setNX k v => unfold Shards.setNX; split <;> first | exact ⟨rfl, rfl⟩ | exact put_same ..
  | mset => exact foldl_same _ (fun s a => put_same ..) _ _
  | remove => exact put_same ..
  | removeCb k cb => unfold Shards.removeCb; simp only; split <;> first | exact ⟨rfl, rfl⟩ | exact put_same ..
  | pop => exact put_same ..
  | clear => exact foldl_same _ (fun s a => put_same ..) _ _
  | _ => exact ⟨rfl, rfl⟩

/-- The number of shards never changes. -/
theorem calls_length {s t : Shards K V} {ls : List (Op K V × Res K V)} (hc : Steps Zinx.ShardMap.Call s ls t) : t.shards.length = s.shards.length ∧ t.hash = s.hash := by
  induction hc with
  | nil => exact ⟨rfl, rfl⟩
  | cons h _ ih =>
    have := call_length h
    exact ⟨ih.1.trans this.1, ih.2.trans this.2⟩

/-- **C120 (unchanged count).** As long as `ShardCount` is what it was when the map was made, `Get`, `Set`, `Remove` and `Count` with it are those of C45. -/
theorem C120_partial {hash : K → UInt32} {n : Nat} (hn : n % 4294967296 ≠ 0) {hist : List (Op K V × Res K V)} {s : Shards K V} (h : Steps Zinx.ShardMap.Call (create V hash n) hist s) (k : K) (v : V) :
    s.getWith n k = some (s.get k) ∧ s.setWith n k v = some (s.set k v) ∧ s.removeWith n k = some (s.remove k) ∧ s.countWith n = some s.count := by
  have hw := (calls_spec (create_wf hash n hn) h).1
  have hl := (calls_length h).1
  simp only [create, List.length_replicate] at hl
  have := partial_wf hw k v
  rw [hl] at this; exact this

/-- **C120 (exactly which keys are still found).** A key that is in the map is found while `ShardCount` is `m` exactly if its hash gives the same remainder modulo `m` (which is not zero) as modulo the number of shards; otherwise `Get` says there is
no such key, or panics. (`m` and the number of shards as `uint32`.) -/
theorem C120_exact_get {hash : K → UInt32} {n m : Nat} (hn : n % 4294967296 ≠ 0) {hist : List (Op K V × Res K V)} {s : Shards K V} (h : Steps Zinx.ShardMap.Call (create V hash n) hist s) {k : K} {v : V} (hk : s.get k = some v) :
    s.getWith m k = some (some v) ↔ m % 4294967296 ≠ 0 ∧ (hash k).toNat % (m % 4294967296) = (hash k).toNat % (n % 4294967296) := by
  have hw := (calls_spec (create_wf hash n hn) h).1
  obtain ⟨hl, hh⟩ := calls_length h
  simp only [create, List.length_replicate] at hl hh
  have hix : s.index k = (hash k).toNat % (n % 4294967296) := by
    unfold Shards.index
    rw [UInt32.toNat_mod, UInt32.toNat_ofNat', hl, hh]
  have hm0 : UInt32.ofNat m = 0 ↔ m % 4294967296 = 0 := by
    rw [← UInt32.toNat_inj, UInt32.toNat_ofNat']; exact Iff.rfl
  have hmx : (s.hash k % UInt32.ofNat m).toNat = (hash k).toNat % (m % 4294967296) := by rw [UInt32.toNat_mod, UInt32.toNat_ofNat', hh]
  unfold Shards.getWith Shards.indexWith
  simp only [hm0, hmx]
  by_cases h0 : m % 4294967296 = 0
  · simp [h0]
  · simp only [h0, if_false, ne_eq, not_false_eq_true, true_and]
    constructor
    · intro hg
      split at hg
      · simp only [Option.map_some, Option.some.injEq] at hg
        have := hw.place _ k v (mem_of_lookup hg)
        rw [← hix]; exact this.symm
      · cases hg
    · intro he
      rw [he, ← hix, if_pos (Wf.index_lt hw.size k)]
      simp only [Option.map_some, Option.some.injEq]
      exact hk

/-- **C120 refuted.** Whatever the number of shards and the new value (both from 1 to 2^32 - 1, and different), there is a hash value whose keys are lost by the change: `Get` does not find what `Set` has put there, or panics. -/
theorem C120_refuted {n m : Nat} (hn : 0 < n) (hm : 0 < m) (hn2 : n < 4294967296) (hm2 : m < 4294967296) (hne : m ≠ n) (k : K) (v : V) :
    ∃ hash : K → UInt32, ((create V hash n).set k v).get k = some v ∧ (((create V hash n).set k v).getWith m k = none ∨ ((create V hash n).set k v).getWith m k = some none) := by
  refine ⟨fun _ => UInt32.ofNat (min n m), ?_, ?_⟩
  · rw [get_set (create_wf _ n (by omega))]; simp
  · have hg : ((create V (fun _ => UInt32.ofNat (min n m)) n).set k v).get k = some v := by rw [get_set (create_wf _ n (by omega))]; simp
    have hst : Steps Zinx.ShardMap.Call (create V (fun _ => UInt32.ofNat (min n m)) n) [(.set k v, .unit)] ((create V (fun _ => UInt32.ofNat (min n m)) n).set k v) := .cons (.set _ k v) (.nil _)
    have hex := C120_exact_get (m := m) (by omega) hst hg
    have hmin : (UInt32.ofNat (min n m)).toNat = min n m := by rw [UInt32.toNat_ofNat']; omega
    have hnot : ¬ ((create V (fun _ => UInt32.ofNat (min n m)) n).set k v).getWith m k = some (some v) := by
      rw [hex, hmin, Nat.mod_eq_of_lt hn2, Nat.mod_eq_of_lt hm2]
      rintro ⟨_, h2⟩
      rcases Nat.lt_or_gt_of_ne hne with hlt | hlt
      · rw [Nat.min_eq_right (Nat.le_of_lt hlt), Nat.mod_self, Nat.mod_eq_of_lt hlt] at h2; omega
      · rw [Nat.min_eq_left (Nat.le_of_lt hlt), Nat.mod_self, Nat.mod_eq_of_lt hlt] at h2; omega
    cases hgw : ((create V (fun _ => UInt32.ofNat (min n m)) n).set k v).getWith m k with
    | none => exact .inl rfl
    | some o =>
      right
      cases o with
      | none => rfl
      | some w =>
        exfalso
        have hgw2 := hgw
        unfold Shards.getWith at hgw
        cases hix : ((create V (fun _ => UInt32.ofNat (min n m)) n).set k v).indexWith m k with
        | none => rw [hix] at hgw; cases hgw
        | some i =>
          rw [hix] at hgw
          simp only [Option.map_some, Option.some.injEq] at hgw
          have hw := set_wf (create_wf (V := V) (fun _ : K => UInt32.ofNat (min n m)) n (by omega)) k v
          have hp := hw.place _ k w (mem_of_lookup hgw)
          have : ((create V (fun _ => UInt32.ofNat (min n m)) n).set k v).get k = some w := by unfold Shards.get; rw [hp]; exact hgw
          rw [hg] at this
          cases this
          exact hnot hgw2

omit [DecidableEq K] in
/-- **C120 (exactly when `Count` is right).** With `ShardCount` being `m`, `Count` gives the number of keys exactly if `m` is at most the number of shards and the shards from `m` on are empty; if `m` is above the number of shards it panics. -/
theorem C120_exact_count (s : Shards K V) (m : Nat) : (s.countWith m = some s.count ↔ m ≤ s.shards.length ∧ ∀ i, m ≤ i → s.shard i = []) ∧ (s.countWith m = none ↔ s.shards.length < m) := by
  have hsum : ∀ l : List (GoMap K V), ((l.map (·.length)).sum = 0 ↔ ∀ i : Nat, (l[i]?).getD [] = []) := by
    intro l
    induction l with
    | nil => simp
    | cons a l ih =>
      simp only [List.map_cons, List.sum_cons, Nat.add_eq_zero_iff, List.length_eq_zero_iff, ih]
      constructor
      · rintro ⟨h1, h2⟩ i
        cases i with
        | zero => simpa using h1
        | succ i => simpa using h2 i
      · intro h
        exact ⟨by simpa using h 0, fun i => by simpa using h (i + 1)⟩
  constructor
  · unfold Shards.countWith
    by_cases hm : m ≤ s.shards.length
    · rw [if_pos hm]
      simp only [hm, true_and, Option.some.injEq]
      have h1 : s.count = ((s.shards.take m).map (·.length)).sum + ((s.shards.drop m).map (·.length)).sum := by
        unfold Shards.count
        rw [← List.sum_append, ← List.map_append, List.take_append_drop]
      have h2 := hsum (s.shards.drop m)
      constructor
      · intro h i hi
        have := h2.1 (by omega) (i - m)
        rw [List.getElem?_drop, show m + (i - m) = i by omega] at this
        exact this
      · intro h
        have := h2.2 fun i => by rw [List.getElem?_drop]; exact h (m + i) (by omega)
        omega
    · rw [if_neg hm]; simp [hm]
  · unfold Shards.countWith
    split <;> simp <;> omega

/-- Ten shards, then eleven: a key with hash value 10 is lost; one with hash value 3 is not. -/
example : ((create Nat (fun k : Nat => UInt32.ofNat k) 10).set 10 1 |>.set 3 2).getWith 11 10 = none ∧ ((create Nat (fun k : Nat => UInt32.ofNat k) 10).set 10 1 |>.set 3 2).getWith 11 3 = some (some 2) := by decide

end Zinx.Props
