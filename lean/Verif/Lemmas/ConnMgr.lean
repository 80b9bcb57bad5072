import Verif.Lemmas.ShardMap
import Verif.Spec.ConnMgr

/-! # Facts about decimal keys, the connection manager and the notifier -/

namespace Zinx.ConnMgr

open Zinx Zinx.ShardMap Zinx.Spec.ShardMap

/-! ## Decimal strings -/

theorem digit_toNat {d : Nat} (h : d < 10) : (UInt8.ofNat (48 + d)).toNat = 48 + d := by
  rw [UInt8.toNat_ofNat']
  omega

theorem formatUint_ne_nil (n : Nat) : formatUint n ≠ [] := by
  unfold formatUint
  split
  · simp
  · simp

theorem formatUint_digits (n : Nat) : ∀ b ∈ formatUint n, 48 ≤ b.toNat ∧ b.toNat ≤ 57 := by
  induction n using Nat.strongRecOn with
  | _ n ih =>
    unfold formatUint
    intro b hb
    split at hb
    · rename_i h
      rw [List.mem_singleton] at hb
      subst hb
      rw [digit_toNat h]; omega
    · rw [List.mem_append] at hb
      rcases hb with hb | hb
      · exact ih (n / 10) (by omega) b hb
      · rw [List.mem_singleton] at hb
        subst hb
        rw [digit_toNat (Nat.mod_lt _ (by decide))]
        have := Nat.mod_lt n (show 0 < 10 by decide)
        omega

theorem formatUint_value (n : Nat) : (formatUint n).foldl (fun n b => n * 10 + (b.toNat - 48)) 0 = n := by
  induction n using Nat.strongRecOn with
  | _ n ih =>
    unfold formatUint
    split
    · rename_i h
      simp only [List.foldl_cons, List.foldl_nil]
      rw [digit_toNat h]; omega
    · rw [List.foldl_append, ih (n / 10) (by omega)]
      simp only [List.foldl_cons, List.foldl_nil]
      rw [digit_toNat (Nat.mod_lt _ (by decide))]
      omega

theorem parse_format (i : UInt64) : parseUint (formatUint i.toNat) = some i := by
  unfold parseUint
  rw [if_neg (formatUint_ne_nil _)]
  have : (formatUint i.toNat).all (fun b => 48 ≤ b && b ≤ 57) = true := by
    rw [List.all_eq_true]
    intro b hb
    have := formatUint_digits _ b hb
    simp [UInt8.le_iff_toNat_le]
    omega
  rw [if_pos this, formatUint_value]
  have := i.toNat_lt
  simp [this]

theorem format_inj {i j : UInt64} (h : formatUint i.toNat = formatUint j.toNat) : i = j := by
  have := congrArg parseUint h
  rw [parse_format, parse_format] at this
  exact Option.some.inj this

/-! ## Maps keyed by ID -/

section
variable {V : Type}

/-- The partial function on IDs a sharded map stands for. -/
def byId (s : Shards Bytes V) : Map UInt64 V := fun i => s.get (formatUint i.toNat)

/-- Only decimal keys. -/
def DecKeys (s : Shards Bytes V) : Prop := ∀ k, s.get k ≠ none → ∃ i : UInt64, k = formatUint i.toNat

theorem set_byId {s : Shards Bytes V} (h : Wf s) (i : UInt64) (v : V) : SetTo (byId s) (byId (s.set (formatUint i.toNat) v)) i (some v) := by
  refine ⟨by unfold byId; rw [get_set h]; simp, ?_⟩
  intro j e
  unfold byId
  rw [get_set h, if_neg (fun c => e (format_inj c))]

theorem remove_byId {s : Shards Bytes V} (h : Wf s) (i : UInt64) : SetTo (byId s) (byId (s.remove (formatUint i.toNat))) i none := by
  refine ⟨by unfold byId; rw [get_remove h]; simp, ?_⟩
  intro j e
  unfold byId
  rw [get_remove h, if_neg (fun c => e (format_inj c))]

theorem set_decKeys {s : Shards Bytes V} (h : Wf s) (hd : DecKeys s) (i : UInt64) (v : V) : DecKeys (s.set (formatUint i.toNat) v) := by
  intro k hk
  rw [get_set h] at hk
  by_cases e : k = formatUint i.toNat
  · exact ⟨i, e⟩
  · rw [if_neg e] at hk; exact hd k hk

theorem remove_decKeys {s : Shards Bytes V} (h : Wf s) (hd : DecKeys s) (i : UInt64) : DecKeys (s.remove (formatUint i.toNat)) := by
  intro k hk
  rw [get_remove h] at hk
  by_cases e : k = formatUint i.toNat
  · exact ⟨i, e⟩
  · rw [if_neg e] at hk; exact hd k hk

/-- Entries by key as entries by ID. -/
theorem entries_byId {s : Shards Bytes V} (h : Wf s) (hd : DecKeys s) {order : List (Bytes × V)} (hp : order.Perm s.entries) :
    ∃ l : List (UInt64 × V), ListsEntries (byId s) l ∧ order = l.map fun x => (formatUint x.1.toNat, x.2) := by
  have le := entries_lists h hp
  have key : ∀ l : List (Bytes × V), (∀ x ∈ l, ∃ i : UInt64, x.1 = formatUint i.toNat) →
      ∃ l' : List (UInt64 × V), l = l'.map fun x => (formatUint x.1.toNat, x.2) := by
    intro l
    induction l with
    | nil => intro _; exact ⟨[], rfl⟩
    | cons x l ih =>
      intro hx
      obtain ⟨l', e⟩ := ih fun y hy => hx y (List.mem_cons_of_mem _ hy)
      obtain ⟨i, hi⟩ := hx x List.mem_cons_self
      exact ⟨(i, x.2) :: l', by rw [e, List.map_cons, ← hi]⟩
  obtain ⟨l, e⟩ := key order (by
    intro x hx
    have := (le.2 x.1 x.2).mp hx
    exact hd x.1 (by rw [this]; simp))
  refine ⟨l, ?_, e⟩
  constructor
  · have n := le.1
    rw [e, List.map_map] at n
    unfold List.Nodup at n ⊢
    rw [List.pairwise_map] at n ⊢
    refine n.imp ?_
    intro a b hab c
    exact hab (by simp [c])
  · intro i v
    unfold byId
    rw [← le.2, e, List.mem_map]
    constructor
    · intro hm; exact ⟨(i, v), hm, rfl⟩
    · rintro ⟨x, hx, ex⟩
      have e1 := congrArg Prod.fst ex
      have e2 := congrArg Prod.snd ex
      dsimp only at e1 e2
      have : x = (i, v) := by rw [← e2, ← format_inj e1]
      rw [← this]; exact hx

theorem size_byId {s : Shards Bytes V} (h : Wf s) (hd : DecKeys s) : HasSize (byId s) s.count := by
  obtain ⟨l, hl, e⟩ := entries_byId h hd (List.Perm.refl _)
  refine ⟨_, lists_keys hl, ?_⟩
  rw [count_eq, e]
  simp

theorem create_decKeys (hash : Bytes → UInt32) (n : Nat) : DecKeys (create V hash n) := by
  intro k hk
  exact absurd (create_get hash n k) hk

end

/-! ## The manager -/

/-- Well-formed manager: decimal keys, and every connection under its own ID. -/
structure MWf (s : Shards Bytes Conn) : Prop where
  wf : Wf s
  dec : DecKeys s
  own : ∀ k c, s.get k = some c → k = c.idStr

theorem mwf_new : MWf newConnManager :=
  ⟨create_wf _ _ (by decide), create_decKeys _ _, by intro k c h; unfold newConnManager at h; rw [create_get] at h; simp at h⟩

theorem mcall_spec {s t : Shards Bytes Conn} {l : Op × Res} (h : MWf s) (hc : Call s l t) : MWf t ∧ Spec.ConnMgr.Call (byId s) l (byId t) := by
  have own : ∀ {order : List (Bytes × Conn)}, order.Perm s.entries → ∀ x ∈ order, x.1 = x.2.idStr := by
    intro order hp x hx
    exact h.own x.1 x.2 (((entries_lists h.wf hp).2 x.1 x.2).mp hx)
  cases hc with
  | add c =>
    refine ⟨⟨set_wf h.wf _ _, set_decKeys h.wf h.dec c.id c, ?_⟩, .add (set_byId h.wf c.id c)⟩
    intro k c' hk
    rw [get_set h.wf] at hk
    by_cases e : k = c.idStr
    · rw [if_pos e] at hk
      cases hk
      exact e
    · rw [if_neg e] at hk; exact h.own k c' hk
  | remove c =>
    refine ⟨⟨remove_wf h.wf _, remove_decKeys h.wf h.dec c.id, ?_⟩, .remove (remove_byId h.wf c.id)⟩
    intro k c' hk
    rw [get_remove h.wf] at hk
    by_cases e : k = c.idStr
    · rw [if_pos e] at hk; cases hk
    · rw [if_neg e] at hk; exact h.own k c' hk
  | get id => exact ⟨h, .get⟩
  | get2 k =>
    refine ⟨h, ?_⟩
    by_cases e : ∃ c : Conn, c.idStr = k
    · obtain ⟨c, rfl⟩ := e
      exact .get2
    · have : s.get k = none := by
        cases hg : s.get k with
        | none => rfl
        | some c => exact absurd ⟨c, (h.own k c hg).symm⟩ e
      rw [this]
      exact .get2other fun c hc => e ⟨c, hc⟩
  | len => exact ⟨h, .len (size_byId h.wf h.dec)⟩
  | allIds order hp =>
    obtain ⟨l, hl, e⟩ := entries_byId h.wf h.dec hp
    have : (order.map (·.1)).filterMap parseUint = l.map (·.1) := by
      rw [e, List.map_map, List.filterMap_map, ← List.filterMap_eq_map]
      congr 1
      funext x
      simp [Function.comp, parse_format]
    rw [this]
    exact ⟨h, .allIds (lists_keys hl)⟩
  | allIdStrs order hp =>
    obtain ⟨l, hl, e⟩ := entries_byId h.wf h.dec hp
    have : order.map (·.1) = l.map (·.2.idStr) := by
      have : order.map (·.1) = order.map (·.2.idStr) := List.map_congr_left (own hp)
      rw [this, e, List.map_map]
      rfl
    rw [this]
    exact ⟨h, .allIdStrs hl⟩
  | clear order hp =>
    obtain ⟨l, hl, e⟩ := entries_byId h.wf h.dec hp
    have : order.map (·.2) = l.map (·.2) := by rw [e, List.map_map]; rfl
    rw [this]
    exact ⟨h, .clear hl⟩

theorem mcalls_spec {s t : Shards Bytes Conn} {ls : List (Op × Res)} (h : MWf s) (hc : Steps Call s ls t) :
    MWf t ∧ Steps Spec.ConnMgr.Call (byId s) ls (byId t) := by
  induction hc with
  | nil => exact ⟨h, .nil _⟩
  | cons h1 _ ih =>
    obtain ⟨a, b⟩ := mcall_spec h h1
    obtain ⟨c, d⟩ := ih a
    exact ⟨c, .cons b d⟩

theorem range_gen {E A : Type} (f : Bytes × Conn → A) (cb : Nat → A → Option E) (order : List (Bytes × Conn)) :
    order.foldl (fun st x => (st.1 ++ [f x], cb st.1.length (f x))) (([], none) : List A × Option E) =
    (order.map f, match order.getLast? with | none => none | some x => cb (order.length - 1) (f x)) := by
  have key : ∀ (l : List (Bytes × Conn)) (pre : List A) (e : Option E),
      l.foldl (fun st x => (st.1 ++ [f x], cb st.1.length (f x))) ((pre, e) : List A × Option E) =
      (pre ++ l.map f, match l.getLast? with | none => e | some x => cb (pre.length + l.length - 1) (f x)) := by
    intro l
    induction l with
    | nil => intro pre e; simp
    | cons x l ih =>
      intro pre e
      rw [List.foldl_cons, ih]
      cases l with
      | nil => simp
      | cons y l =>
        rw [List.getLast?_cons_cons]
        simp only [List.length_append, List.length_cons, List.length_nil, List.append_assoc, List.map_cons]
        have e1 : pre.length + (0 + 1) + (l.length + 1) - 1 = pre.length + (l.length + 1 + 1) - 1 := by omega
        rw [e1]
        rfl
  rw [key]
  simp

theorem range_eq {E : Type} (cb : Nat → UInt64 → Conn → Option E) (order : List (Bytes × Conn)) :
    range cb order = (order.map (fun x => ((parseUint x.1).getD 0, x.2)),
      match order.getLast? with | none => none | some x => cb (order.length - 1) ((parseUint x.1).getD 0) x.2) :=
  range_gen (fun x => ((parseUint x.1).getD 0, x.2)) (fun i a => cb i a.1 a.2) order

theorem range2_eq {E : Type} (cb : Nat → Bytes → Conn → Option E) (order : List (Bytes × Conn)) :
    range2 cb order = (order.map (fun x => (x.2.idStr, x.2)),
      match order.getLast? with | none => none | some x => cb (order.length - 1) x.2.idStr x.2) :=
  range_gen (fun x => (x.2.idStr, x.2)) (fun i a => cb i a.1 a.2) order

/-! ## The notifier -/

theorem ncall_spec {ok : Nat → Bool} {s t : Shards Bytes Nat} {l : NOp × NRes} (h : Wf s) (hd : DecKeys s) (hc : NCall ok s l t)
    (hall : l.1 = .sendAll → ∀ id c, byId s id = some c → ok c = true) :
    Wf t ∧ DecKeys t ∧ Spec.ConnMgr.NCall ok (byId s) l (byId t) := by
  cases hc with
  | set id c => exact ⟨set_wf h _ _, set_decKeys h hd _ _, .set (set_byId h id c)⟩
  | get id => exact ⟨h, hd, .get⟩
  | has id =>
    refine ⟨h, hd, ?_⟩
    have : s.has (formatUint id.toNat) = (byId s id).isSome := rfl
    rw [this]
    cases e : byId s id with
    | none => exact .hasNo e
    | some c => exact .hasYes (by rw [e]; simp)
  | del id => exact ⟨remove_wf h _, remove_decKeys h hd _, .del (remove_byId h id)⟩
  | nums => exact ⟨h, hd, .nums (size_byId h hd)⟩
  | send id =>
    refine ⟨h, hd, ?_⟩
    show Spec.ConnMgr.NCall ok (byId s) (NOp.send id, match byId s id with | none => .sent [] true | some c => .sent [c] (!ok c)) (byId s)
    cases e : byId s id with
    | none => exact .sendUnknown e
    | some c => exact .send e
  | sendAll order hp =>
    obtain ⟨l, hl, e⟩ := entries_byId h hd hp
    have : order.map (·.2) = l.map (·.2) := by rw [e, List.map_map]; rfl
    rw [this]
    refine ⟨h, hd, .sendAll hl ⟨fun c => by simp at c, ?_⟩⟩
    rintro ⟨x, hx, hf⟩
    have := hall rfl x.1 x.2 ((hl.2 x.1 x.2).mp hx)
    rw [this] at hf; exact absurd hf (by simp)

end Zinx.ConnMgr
