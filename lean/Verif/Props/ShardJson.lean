import Verif.Model.ShardJson
import Verif.Props.ShardCount
import Verif.Props.IterCount

/-!
# C121: `UnmarshalJSON` as the reverse of `MarshalJSON`
-/

namespace Zinx.Props

open Zinx.ShardMap

variable {K V B : Type} [DecidableEq K]

/-- What is asked of `encoding/json`: what has been encoded can be decoded and has the same keys, each once, and the values as the library gives them back (`norm`; an `int` comes back as a `float64`, for instance). -/
def JsonLib (enc : GoMap K V → Option B) (dec : B → Option (GoMap K V)) (norm : V → V) : Prop :=
  ∀ m b, (m.map (·.1)).Nodup → enc m = some b → ∃ d, dec b = some d ∧ (d.map (·.1)).Nodup ∧ ∀ k, lookup d k = (lookup m k).map norm

theorem lookup_none_iff (m : GoMap K V) (k : K) : lookup m k = none ↔ k ∉ m.map (·.1) := by
  induction m with
  | nil => simp [lookup]
  | cons x m ih =>
    unfold lookup at ih ⊢
    by_cases e : x.1 = k
    · simp [e]
    · simp only [List.find?_cons, e, decide_false, List.map_cons, List.mem_cons, not_or]
      rw [ih]
      exact ⟨fun h => ⟨fun hk => e hk.symm, h⟩, fun h => h.2⟩

theorem lists_lookup {m : K → Option V} {l : GoMap K V} (h : Zinx.Spec.ShardMap.ListsEntries m l) (k : K) : lookup l k = m k := by
  cases hl : lookup l k with
  | some v => exact ((h.2 k v).1 (mem_of_lookup hl)).symm
  | none =>
    cases hm : m k with
    | none => rfl
    | some v => exact absurd (List.mem_map.2 ⟨(k, v), (h.2 k v).2 hm, rfl⟩) ((lookup_none_iff l k).1 hl)

/-- What `UnmarshalJSON` does to a map that was made: the decoded entries are set, the others stay. -/
theorem unmarshal_facts {dec : B → Option (GoMap K V)} {t : Shards K V} (hw : Wf t) {b : B} {d : GoMap K V} (hd : dec b = some d) (hn : (d.map (·.1)).Nodup) :
    ∃ u, unmarshal dec (some t) b = (.ok, some u) ∧ ∀ k, u.get k = (lookup d k).or (t.get k) := by
  refine ⟨t.mset d, by simp [unmarshal, hd, setAll], fun k => ?_⟩
  obtain ⟨_, h1, h2⟩ := mset_facts d t hw hn
  cases hl : lookup d k with
  | none => rw [h2 k ((lookup_none_iff d k).1 hl)]; rfl
  | some v => rw [h1 k v (mem_of_lookup hl)]; rfl

/-- **C121 (maps that were made).** What `MarshalJSON` gives for a map, given to `UnmarshalJSON` of another map (any number of shards, any hash function), sets exactly the keys of the first to their values, as the library gives them back; the
other keys of the second stay. So a map that was just made becomes a copy. -/
theorem C121_partial {enc : GoMap K V → Option B} {dec : B → Option (GoMap K V)} {norm : V → V} (hlib : JsonLib enc dec norm) {hash hash' : K → UInt32} {n n' : Nat} (hn : n % 4294967296 ≠ 0) (hn' : n' % 4294967296 ≠ 0)
    {hist hist' : List (Op K V × Res K V)} {s t : Shards K V} (h : Steps Zinx.ShardMap.Call (create V hash n) hist s) (h' : Steps Zinx.ShardMap.Call (create V hash' n') hist' t)
    {order : List (K × V)} (ho : order.Perm s.entries) {b : B} (hb : marshal enc order = some b) :
    ∃ u, unmarshal dec (some t) b = (.ok, some u) ∧ ∀ k, u.get k = ((s.get k).map norm).or (t.get k) := by
  have hw := (calls_spec (create_wf hash n hn) h).1
  have hw' := (calls_spec (create_wf hash' n' hn') h').1
  have hl := items_eq (entries_lists hw ho)
  obtain ⟨d, hd, hnd, hlk⟩ := hlib _ b hl.1 hb
  obtain ⟨u, h1, h2⟩ := unmarshal_facts hw' hd hnd
  exact ⟨u, h1, fun k => by rw [h2, hlk, lists_lookup hl]⟩

/-- **C121 (malformed input).** If the text cannot be decoded, the error is returned and no map is changed. -/
theorem C121_error (dec : B → Option (GoMap K V)) (recv : Option (Shards K V)) {b : B} (h : dec b = none) : unmarshal dec recv b = (.err, recv) := by
  simp [unmarshal, h]

/-- **C121 (exactly when it panics).** `UnmarshalJSON` panics exactly if the receiver is a zero value and the text has at least one key. -/
theorem C121_exact_panic (dec : B → Option (GoMap K V)) (recv : Option (Shards K V)) (b : B) : (unmarshal dec recv b).1 = .panic ↔ recv = none ∧ ∃ d, dec b = some d ∧ d ≠ [] := by
  unfold unmarshal
  cases hd : dec b with
  | none => simp
  | some d =>
    cases recv with
    | none => cases d <;> simp [setAll]
    | some s => simp [setAll]

/-- **C121 refuted.** `var m ShardLockMaps; json.Unmarshal(b, &m)` panics for what `MarshalJSON` gives for any map that is not empty. -/
theorem C121_refuted {enc : GoMap K V → Option B} {dec : B → Option (GoMap K V)} {norm : V → V} (hlib : JsonLib enc dec norm) {hash : K → UInt32} {n : Nat} (hn : n % 4294967296 ≠ 0)
    {hist : List (Op K V × Res K V)} {s : Shards K V} (h : Steps Zinx.ShardMap.Call (create V hash n) hist s) {k : K} {v : V} (hk : s.get k = some v)
    {order : List (K × V)} (ho : order.Perm s.entries) {b : B} (hb : marshal enc order = some b) : (unmarshal dec none b).1 = .panic := by
  have hw := (calls_spec (create_wf hash n hn) h).1
  have hl := items_eq (entries_lists hw ho)
  obtain ⟨d, hd, _, hlk⟩ := hlib _ b hl.1 hb
  refine (C121_exact_panic dec none b).2 ⟨rfl, d, hd, ?_⟩
  intro he
  have := hlk k
  rw [he, lists_lookup hl, hk] at this
  cases this

/-- **C121 (the zero value cannot be encoded).** `MarshalJSON` of the zero value never returns: it waits for `ShardCount` goroutines and starts none. -/
theorem C121_marshal_refuted {E : Type} {m : Nat} (hm : 0 < m) {items : Nat → List E} {ls : List (IterChan.Label E)} {s : IterChan.State E} (h : Steps (IterChan.Step 0 m) (IterChan.start items m) ls s) : ∀ t, s.main ≠ .returned t :=
  C120_hangs_refuted hm h

/-- A library that keeps everything; two maps with a key in common. -/
example : JsonLib (K := Nat) (V := Nat) some some id ∧
    ((unmarshal some (some ((create Nat (fun k : Nat => UInt32.ofNat k) 5).set 1 10 |>.set 2 20)) [(2, 7), (3, 8)]).2.map fun u => (u.get 1, u.get 2, u.get 3)) = some (some 10, some 7, some 8) :=
  ⟨fun m b hn hb => ⟨m, hb ▸ rfl, hn, fun k => by simp⟩, by decide⟩

/-- The histories of the theorems: a map with one key, encoded. -/
example : ∃ (s : Shards Nat Nat) (order : List (Nat × Nat)), Steps Zinx.ShardMap.Call (create Nat (fun k : Nat => UInt32.ofNat k) 5) [(.set 1 10, .unit)] s ∧ order.Perm s.entries ∧ s.get 1 = some 10 ∧ marshal some order = some [(1, 10)] :=
  ⟨_, [(1, 10)], .cons (.set _ 1 10) (.nil _), by decide, by decide, by decide⟩

end Zinx.Props
