import Verif.Lemmas.ConnMgr
import Verif.Lemmas.Callbacks

/-! # Which shard a key goes to (zutils/hash.go, zutils/shard_lock_map.go:45-47, znet/connmanager.go) -/

namespace Zinx.Props

open Zinx Zinx.ShardMap Zinx.ConnMgr

theorem fnv32_snoc (k : Bytes) (b : UInt8) : fnv32 (k ++ [b]) = (fnv32 k * 16777619) ^^^ b.toUInt32 := by
  simp [fnv32]

/-- **C96** (the sum): `Sum` is the 32-bit FNV-1 hash: it starts with the offset basis, and each byte multiplies by the FNV prime modulo 2^32 and then is xored in. -/
theorem C96_sum : (fnv32 []).toNat = 2166136261 ∧
    ∀ (k : Bytes) (b : UInt8), (fnv32 (k ++ [b])).toNat = ((fnv32 k).toNat * 16777619 % 2 ^ 32) ^^^ b.toNat := by
  refine ⟨by decide, fun k b => ?_⟩
  rw [fnv32_snoc]
  simp [UInt32.toNat_xor, UInt32.toNat_mul]

/-- FNV-1 of "a" in the published test vectors is 0x050c5d7e. -/
example : (fnv32 [97]).toNat = 0x050c5d7e := by decide

theorem fnv_mul_inj {x y : UInt32} (h : x * 16777619 = y * 16777619) : x = y := by
  have e : ∀ z : UInt32, z * 16777619 * 899433627 = z := by
    intro z
    rw [UInt32.mul_assoc, show (16777619 : UInt32) * 899433627 = 1 by decide, UInt32.mul_one]
  rw [← e x, h, e y]

theorem fnv_fold_inj (q : Bytes) : ∀ x y : UInt32, q.foldl (fun h b => (h * 16777619) ^^^ b.toUInt32) x = q.foldl (fun h b => (h * 16777619) ^^^ b.toUInt32) y → x = y := by
  induction q with
  | nil => intro x y h; exact h
  | cons b q ih => intro x y h; exact fnv_mul_inj (UInt32.xor_left_inj _ |>.1 (ih _ _ h))

/-- **C96** (no collision of neighbours): keys that differ in one byte have different sums. -/
theorem C96_one_byte (p q : Bytes) (a b : UInt8) : fnv32 (p ++ a :: q) = fnv32 (p ++ b :: q) ↔ a = b := by
  refine ⟨fun h => ?_, fun h => by rw [h]⟩
  simp only [fnv32, List.foldl_append, List.foldl_cons] at h
  have h := UInt32.xor_right_inj _ |>.1 (fnv_fold_inj q _ _ h)
  exact UInt8.toNat_inj.1 (by simpa using congrArg UInt32.toNat h)

theorem nat_xor_cancel {a b c : Nat} (h : c ^^^ a = c ^^^ b) : a = b := by
  have e : ∀ x : Nat, c ^^^ (c ^^^ x) = x := by intro x; rw [← Nat.xor_assoc, Nat.xor_self, Nat.zero_xor]
  rw [← e a, h, e b]

theorem fnv_low (h : UInt32) (b : UInt8) : ((h * 16777619) ^^^ b.toUInt32).toNat % 32 = (h.toNat % 32 * 19 % 32) ^^^ (b.toNat % 32) := by
  have e := Nat.xor_mod_two_pow (a := h.toNat * 16777619 % 2 ^ 32) (b := b.toNat) (n := 5)
  simp only [UInt32.toNat_xor, UInt32.toNat_mul, UInt8.toNat_toUInt32, UInt32.reduceToNat]
  rw [show (32 : Nat) = 2 ^ 5 by rfl, e]
  congr 1
  omega

theorem fnv_fold_low (q : Bytes) : ∀ x y : UInt32,
    (q.foldl (fun h b => (h * 16777619) ^^^ b.toUInt32) x).toNat % 32 = (q.foldl (fun h b => (h * 16777619) ^^^ b.toUInt32) y).toNat % 32 ↔ x.toNat % 32 = y.toNat % 32 := by
  induction q with
  | nil => intro x y; exact Iff.rfl
  | cons b q ih =>
    intro x y
    rw [List.foldl_cons, List.foldl_cons, ih, fnv_low, fnv_low]
    refine ⟨fun h => ?_, fun h => by rw [h]⟩
    rw [Nat.xor_comm, Nat.xor_comm (y.toNat % 32 * 19 % 32)] at h
    have := nat_xor_cancel h
    omega

theorem fnv_index {V : Type} (s : Shards Bytes V) (hh : s.hash = fnv32) (hn : s.shards.length = 32) (k : Bytes) : s.index k = (fnv32 k).toNat % 32 := by
  simp [Shards.index, hh, hn]

/-- **C96** (shards): in a map with the default hash and 32 shards, keys that differ in one byte are in the same shard exactly if the two bytes agree in the low five bits. -/
theorem C96_shard {V : Type} (s : Shards Bytes V) (hh : s.hash = fnv32) (hn : s.shards.length = 32) (p q : Bytes) (a b : UInt8) :
    s.index (p ++ a :: q) = s.index (p ++ b :: q) ↔ a.toNat % 32 = b.toNat % 32 := by
  rw [fnv_index s hh hn, fnv_index s hh hn]
  simp only [fnv32, List.foldl_append, List.foldl_cons]
  rw [fnv_fold_low, fnv_low, fnv_low]
  exact ⟨fun h => nat_xor_cancel h, fun h => by rw [h]⟩

/-- Its hypotheses hold of every new map and of the connection manager: "17" and "1W" share a shard, "17" and "18" do not. -/
example : newConnManager.index [49, 55] = newConnManager.index [49, 87] ∧ newConnManager.index [49, 55] ≠ newConnManager.index [49, 56] := by
  have h := fun a b => C96_shard newConnManager rfl (by decide) [49] [] a b
  exact ⟨(h 55 87).2 (by decide), fun e => absurd ((h 55 56).1 e) (by decide)⟩

/-! ## Connections -/

theorem manager_size {s : Shards Bytes Conn} {ls : List (ConnMgr.Op × ConnMgr.Res)} (h : Steps ConnMgr.Call newConnManager ls s) : s.hash = fnv32 ∧ s.shards.length = 32 := by
  refine Steps.invariant (P := fun s : Shards Bytes Conn => s.hash = fnv32 ∧ s.shards.length = 32) ?_ h ⟨rfl, by decide⟩
  intro s l t ⟨h1, h2⟩ hs
  cases hs <;> simp_all [Shards.set, Shards.remove, Shards.put]

theorem format_last (n : Nat) : ∃ p : Bytes, formatUint n = p ++ [UInt8.ofNat (48 + n % 10)] ∧ ∀ m, m / 10 = n / 10 → formatUint m = p ++ [UInt8.ofNat (48 + m % 10)] := by
  by_cases h : n < 10
  · refine ⟨[], ?_, fun m hm => ?_⟩
    · rw [formatUint, if_pos h, Nat.mod_eq_of_lt h, List.nil_append]
    · have : m < 10 := by omega
      rw [formatUint, if_pos this, Nat.mod_eq_of_lt this, List.nil_append]
  · refine ⟨formatUint (n / 10), ?_, fun m hm => ?_⟩
    · rw [formatUint, if_neg h]
    · have : ¬ m < 10 := by omega
      rw [formatUint, if_neg this, hm]

/-- **C96** (connections): at no time does one shard of the connection manager hold two connections whose IDs differ in the last decimal digit only: ten connections with consecutive IDs
`10 q`, …, `10 q + 9` are in ten different shards. -/
theorem C96_decade {s : Shards Bytes Conn} {ls : List (ConnMgr.Op × ConnMgr.Res)} (h : Steps ConnMgr.Call newConnManager ls s) (i : Nat) (k k' : Bytes) (c d : Conn)
    (hc : (k, c) ∈ s.shard i) (hd : (k', d) ∈ s.shard i) (hq : c.id.toNat / 10 = d.id.toNat / 10) : c = d := by
  have hw := (mcalls_spec mwf_new h).1
  obtain ⟨hh, hn⟩ := manager_size h
  have own : ∀ {k : Bytes} {c : Conn}, (k, c) ∈ s.shard i → k = c.idStr := by
    intro k c hc
    refine hw.own k c ?_
    unfold Shards.get
    rw [hw.wf.place i k c hc]
    exact (lookup_iff (hw.wf.nodup i)).2 hc
  have ek := own hc
  have ek' := own hd
  obtain ⟨p, e1, e2⟩ := format_last d.id.toNat
  have e3 := e2 _ hq
  have hi : s.index (p ++ [UInt8.ofNat (48 + c.id.toNat % 10)]) = s.index (p ++ [UInt8.ofNat (48 + d.id.toNat % 10)]) := by
    rw [← e1, ← e3]
    have a := hw.wf.place i k c hc
    have b := hw.wf.place i k' d hd
    rw [ek] at a
    rw [ek'] at b
    exact a.trans b.symm
  have hm := (C96_shard s hh hn p [] _ _).1 hi
  have hx : ∀ m, (UInt8.ofNat (48 + m % 10)).toNat = 48 + m % 10 := by
    intro m
    rw [UInt8.toNat_ofNat']
    omega
  rw [hx, hx] at hm
  have hid : c.id = d.id := UInt64.toNat_inj.1 (by omega)
  have hkk : k = k' := by rw [ek, ek']; simp only [Conn.idStr, hid]
  subst hkk
  have a := (lookup_iff (hw.wf.nodup i)).2 hc
  have b := (lookup_iff (hw.wf.nodup i)).2 hd
  rw [a] at b
  exact Option.some.inj b

/-- **C96** (load): while all IDs of connections in the manager are below `10 q`, no shard holds more than `q` connections. -/
theorem C96_load {s : Shards Bytes Conn} {ls : List (ConnMgr.Op × ConnMgr.Res)} (h : Steps ConnMgr.Call newConnManager ls s) (q : Nat)
    (hq : ∀ x ∈ s.entries, x.2.id.toNat < 10 * q) (i : Nat) : (s.shard i).length ≤ q := by
  have hw := (mcalls_spec mwf_new h).1
  have hlen : ((s.shard i).map fun x => x.2.id.toNat / 10).length ≤ q := by
    refine Callbacks.nodup_length_le q _ ?_ ?_
    · have hn : (s.shard i).Pairwise fun x y => x.1 ≠ y.1 := List.pairwise_map.1 (hw.wf.nodup i)
      rw [List.Nodup, List.pairwise_map]
      refine List.Pairwise.imp_of_mem ?_ hn
      intro x y hx hy hne e
      have := C96_decade h i x.1 y.1 x.2 y.2 hx hy e
      refine hne ?_
      have own : ∀ z ∈ s.shard i, z.1 = z.2.idStr := by
        intro z hz
        refine hw.own z.1 z.2 ?_
        unfold Shards.get
        rw [hw.wf.place i z.1 z.2 hz]
        exact (lookup_iff (hw.wf.nodup i)).2 hz
      rw [own x hx, own y hy, this]
    · intro a ha
      obtain ⟨x, hx, rfl⟩ := List.mem_map.1 ha
      have := hq x (mem_entries.2 ⟨i, by rw [← hw.wf.place i x.1 x.2 hx]; exact Wf.index_lt hw.wf.size _, hx⟩)
      omega
  rwa [List.length_map] at hlen

theorem adds_low (n : Nat) : ∀ (cs : List Conn) (s : Shards Bytes Conn), Wf s → (∀ c ∈ cs, c.id.toNat < n) → (∀ k c, s.get k = some c → c.id.toNat < n) →
    ∃ t, Steps ConnMgr.Call s (cs.map fun c => (.add c, .unit)) t ∧ Wf t ∧ ∀ k c, t.get k = some c → c.id.toNat < n := by
  intro cs
  induction cs with
  | nil => intro s hw _ h; exact ⟨s, .nil _, hw, h⟩
  | cons c cs ih =>
    intro s hw hc h
    obtain ⟨t, ht, hw', h'⟩ := ih (s.set c.idStr c) (set_wf hw _ _) (fun d hd => hc d (List.mem_cons_of_mem _ hd)) (by
      intro k d hk
      rw [get_set hw] at hk
      by_cases e : k = c.idStr
      · rw [if_pos e] at hk
        cases hk
        exact hc c List.mem_cons_self
      · rw [if_neg e] at hk
        exact h k d hk)
    exact ⟨t, .cons (.add s c) ht, hw', h'⟩

/-- Fifteen connections with the IDs 0, …, 14: no shard holds more than two. -/
example : ∃ (ls : List (ConnMgr.Op × ConnMgr.Res)) (s : Shards Bytes Conn), Steps ConnMgr.Call newConnManager ls s ∧ ls.length = 15 ∧
    (∀ n < 15, ∃ c : Conn, c.id.toNat = n ∧ (.add c, .unit) ∈ ls) ∧ ∀ i, (s.shard i).length ≤ 2 := by
  obtain ⟨t, ht, hw, h⟩ := adds_low 20 ((List.range 15).map fun n => { handle := n, id := UInt64.ofNat n }) newConnManager mwf_new.wf (by decide)
    (by intro k c h; unfold newConnManager at h; rw [create_get] at h; simp at h)
  refine ⟨_, t, ht, by decide, ?_, C96_load ht 2 ?_⟩
  · intro n hn
    refine ⟨{ handle := n, id := UInt64.ofNat n }, ?_, ?_⟩
    · rw [UInt64.toNat_ofNat']
      omega
    · exact List.mem_map.2 ⟨_, List.mem_map.2 ⟨n, List.mem_range.2 hn, rfl⟩, rfl⟩
  · intro x hx
    exact h x.1 x.2 (((entries_lists hw (List.Perm.refl _)).2 x.1 x.2).1 hx)

end Zinx.Props
