import Verif.Model.HandRead
import Verif.Props.Wire
import Verif.Props.Pack

/-!
# C138: programs that read with `io.ReadFull` and `Unpack`
-/

namespace Zinx.Props

open Zinx Zinx.Spec Zinx.Frame Zinx.Pack Zinx.Decoder Zinx.HandRead

theorem readFull_iff : ∀ (n : Nat) (conn : List Bytes),
    (conn.flatten.length < n → readFull n conn = none) ∧
    (n ≤ conn.flatten.length → ∃ r, readFull n conn = some (conn.flatten.take n, r) ∧ r.flatten = conn.flatten.drop n) := by
  intro n conn
  induction conn generalizing n with
  | nil =>
    cases n with
    | zero => exact ⟨fun h => absurd h (by simp), fun _ => ⟨[], rfl, rfl⟩⟩
    | succ n => exact ⟨fun _ => rfl, fun h => absurd h (by simp)⟩
  | cons c cs ih =>
    cases n with
    | zero => exact ⟨fun h => absurd h (by simp), fun _ => ⟨c :: cs, by simp [readFull], by simp⟩⟩
    | succ n =>
      rw [readFull, List.flatten_cons, List.length_append]
      by_cases hc : c.length ≤ n + 1
      · rw [if_pos hc]
        obtain ⟨i1, i2⟩ := ih (n + 1 - c.length)
        constructor
        · intro h; rw [i1 (by omega)]
        · intro h
          obtain ⟨r, h1, h2⟩ := i2 (by omega)
          rw [h1]
          refine ⟨r, ?_, ?_⟩
          · dsimp only
            rw [List.take_append, List.take_of_length_le hc]
          · rw [h2, List.drop_append, List.drop_of_length_le hc, List.nil_append]
      · rw [if_neg hc]
        constructor
        · intro h; omega
        · intro h
          refine ⟨c.drop (n + 1) :: cs, ?_, ?_⟩
          · rw [List.take_append_of_le_length (by omega)]
          · rw [List.flatten_cons, List.drop_append_of_le_length (by omega)]

/-- The two packings of the library: TLV and LTV. -/
def packingOf : Bool → UInt32 → Bytes → Bytes
  | false => tlvWire
  | true => ltvWire

/-- Their `Unpack`. -/
def unpackOf : Bool → UInt32 → Bytes → Except UnpackErr Message
  | false => unpackTlv
  | true => unpackLtv

/-- Their decoder. -/
def kindOf : Bool → Kind
  | false => .tlv
  | true => .ltv

/-- `MaxPacketSize` allows so many bytes of data. -/
def fits (maxPacketSize : UInt32) (n : Nat) : Prop := maxPacketSize = 0 ∨ n ≤ maxPacketSize.toNat

instance (m : UInt32) (n : Nat) : Decidable (fits m n) := inferInstanceAs (Decidable (_ ∨ _))

theorem wire_head (little : Bool) (maxPacketSize id : UInt32) (data : Bytes) (hd : data.length < 2 ^ 32) :
    ∃ h : Bytes, h.length = 8 ∧ packingOf little id data = h ++ data ∧
      (fits maxPacketSize data.length → ∃ m, unpackOf little maxPacketSize h = .ok m ∧ m.id = id ∧ m.dataLen.toNat = data.length) ∧
      (¬ fits maxPacketSize data.length → unpackOf little maxPacketSize h = .error .tooLarge) := by
  have hz : maxPacketSize = 0 ↔ maxPacketSize.toNat = 0 := ⟨fun h => by rw [h]; rfl, fun h => UInt32.toNat_inj.1 h⟩
  cases little with
  | false =>
    refine ⟨be32 id.toNat ++ be32 data.length, rfl, rfl, ?_, ?_⟩
    all_goals obtain ⟨_, h2, h3⟩ := C10_unpack_tlv maxPacketSize (be32 id.toNat ++ be32 data.length)
    all_goals have e1 : (be32 id.toNat ++ be32 data.length).take 4 = be32 id.toNat := rfl
    all_goals have e2 : ((be32 id.toNat ++ be32 data.length).drop 4).take 4 = be32 data.length := rfl
    all_goals rw [e2, beValue_be32 _ hd] at h2 h3
    all_goals rw [e1, beValue_be32 _ id.toNat_lt] at h3
    · intro hf
      obtain ⟨m, a, b, c, _⟩ := h3 (Nat.le_refl 8) (hf.imp_left hz.1)
      exact ⟨m, a, UInt32.toNat_inj.1 b, c⟩
    · intro hf
      have : ¬ maxPacketSize.toNat = 0 := fun h => hf (.inl (hz.2 h))
      exact h2 (Nat.le_refl 8) (by omega) (Nat.lt_of_not_le fun h => hf (.inr h))
  | true =>
    refine ⟨le32 data.length ++ le32 id.toNat, rfl, rfl, ?_, ?_⟩
    all_goals obtain ⟨_, h2, h3⟩ := C10_unpack_ltv maxPacketSize (le32 data.length ++ le32 id.toNat)
    all_goals have e1 : (le32 data.length ++ le32 id.toNat).take 4 = le32 data.length := rfl
    all_goals have e2 : ((le32 data.length ++ le32 id.toNat).drop 4).take 4 = le32 id.toNat := rfl
    all_goals rw [e1, leValue_le32 _ hd] at h2 h3
    all_goals rw [e2, leValue_le32 _ id.toNat_lt] at h3
    · intro hf
      obtain ⟨m, a, b, c, _⟩ := h3 (Nat.le_refl 8) (hf.imp_left hz.1)
      exact ⟨m, a, UInt32.toNat_inj.1 c, b⟩
    · intro hf
      have : ¬ maxPacketSize.toNat = 0 := fun h => hf (.inl (hz.2 h))
      exact h2 (Nat.le_refl 8) (by omega) (Nat.lt_of_not_le fun h => hf (.inr h))

/-- One message at the front of the stream. -/
theorem loop_message (little : Bool) (maxPacketSize id : UInt32) (data rest : Bytes) (hd : data.length < 2 ^ 32) (conn : List Bytes)
    (hc : conn.flatten = packingOf little id data ++ rest) :
    (fits maxPacketSize data.length → ∃ r : List Bytes, r.flatten = rest ∧
      (HandRead.loop (unpackOf little maxPacketSize) conn).1 = (if data = [] then [] else [(id, data)]) ++ (HandRead.loop (unpackOf little maxPacketSize) r).1 ∧
      (HandRead.loop (unpackOf little maxPacketSize) conn).2 = (HandRead.loop (unpackOf little maxPacketSize) r).2) ∧
    (¬ fits maxPacketSize data.length → HandRead.loop (unpackOf little maxPacketSize) conn = ([], .refused)) := by
  obtain ⟨h, hl, hw, ha, hb⟩ := wire_head little maxPacketSize id data hd
  rw [hw, List.append_assoc] at hc
  obtain ⟨r, h1, h2⟩ := (readFull_iff 8 conn).2 (by rw [hc, List.length_append]; omega)
  rw [hc, List.take_left' hl] at h1
  rw [hc, List.drop_left' hl] at h2
  constructor
  · intro hf
    obtain ⟨m, hm, rfl, hlen⟩ := ha hf
    rw [HandRead.loop]
    split
    · next heq => rw [h1] at heq; cases heq
    · next head r0 heq =>
      rw [h1] at heq
      cases heq
      rw [hm]
      dsimp only
      by_cases h0 : 0 < m.dataLen.toNat
      · rw [if_pos h0]
        obtain ⟨r', h3, h4⟩ := (readFull_iff m.dataLen.toNat r).2 (by rw [h2, List.length_append]; omega)
        rw [h2, List.take_left' hlen.symm] at h3
        rw [h2, List.drop_left' hlen.symm] at h4
        refine ⟨r', h4, ?_⟩
        have hne : data ≠ [] := fun h => by rw [h] at hlen; rw [hlen] at h0; exact absurd h0 (by simp)
        rw [if_neg hne]
        split
        · next heq => rw [h3] at heq; cases heq
        · next heq =>
          rw [h3] at heq
          cases heq
          exact ⟨rfl, rfl⟩
      · rw [if_neg h0]
        have he : data = [] := List.eq_nil_of_length_eq_zero (by omega)
        subst he
        exact ⟨r, h2, by simp, rfl⟩
  · intro hf
    have he := hb hf
    rw [HandRead.loop]
    split
    · next heq => rw [h1] at heq; cases heq
    · next head r0 heq =>
      rw [h1] at heq
      cases heq
      rw [he]

/-- The beginning of a message. -/
theorem loop_begun (little : Bool) (maxPacketSize id : UInt32) (data p q : Bytes) (hd : data.length < 2 ^ 32) (hw : packingOf little id data = p ++ q) (hq : q ≠ [])
    (conn : List Bytes) (hc : conn.flatten = p) :
    HandRead.loop (unpackOf little maxPacketSize) conn = ([], if 8 ≤ p.length ∧ ¬ fits maxPacketSize data.length then .refused else .waits) := by
  obtain ⟨h, hl, hw', ha, hb⟩ := wire_head little maxPacketSize id data hd
  have hq' : 0 < q.length := List.length_pos_iff.2 hq
  have hlen := congrArg List.length (hw'.symm.trans hw)
  rw [List.length_append, List.length_append] at hlen
  by_cases h8 : 8 ≤ p.length
  · have hp : ∃ p', p = h ++ p' ∧ data = p' ++ q := by
      have e : h ++ data = p ++ q := hw'.symm.trans hw
      refine ⟨p.drop 8, ?_, ?_⟩
      · have := congrArg (List.take 8) e
        rw [List.take_left' hl, List.take_append_of_le_length h8] at this
        rw [this, List.take_append_drop]
      · have := congrArg (List.drop 8) e
        rw [List.drop_left' hl, List.drop_append_of_le_length h8] at this
        exact this
    obtain ⟨p', rfl, rfl⟩ := hp
    obtain ⟨r, h1, h2⟩ := (readFull_iff 8 conn).2 (by rw [hc]; exact h8)
    rw [hc, List.take_left' hl] at h1
    rw [hc, List.drop_left' hl] at h2
    rw [HandRead.loop]
    split
    · next heq => rw [h1] at heq; cases heq
    · next head r0 heq =>
      rw [h1] at heq
      cases heq
      by_cases hf : fits maxPacketSize (p' ++ q).length
      · obtain ⟨m, hm, rfl, hml⟩ := ha hf
        rw [hm, if_neg (fun h => h.2 hf)]
        dsimp only
        rw [List.length_append] at hml
        rw [if_pos (by omega)]
        have h3 := (readFull_iff m.dataLen.toNat r).1 (by rw [h2]; omega)
        split
        · rfl
        · next heq => rw [h3] at heq; cases heq
      · rw [hb hf, if_pos ⟨h8, hf⟩]
  · rw [if_neg (fun h => h8 h.1)]
    have h1 := (readFull_iff 8 conn).1 (by rw [hc]; omega)
    rw [HandRead.loop]
    split
    · rfl
    · next heq => rw [h1] at heq; cases heq

/-- The messages up to the first that the limit does not allow. -/
def allowed (maxPacketSize : UInt32) (msgs : List (UInt32 × Bytes)) : List (UInt32 × Bytes) := msgs.takeWhile fun m => decide (fits maxPacketSize m.2.length)

/-- **C138, exactly.** Messages packed with TLV or LTV, and the beginning of a further one, in pieces of any size: the program shows the messages that have data, in order, as they were sent, up to the first that is
longer than `MaxPacketSize` of its own process; there it returns, as soon as it has the header. Otherwise it waits for more. -/
theorem C138_exact (little : Bool) (maxPacketSize : UInt32) (msgs : List (UInt32 × Bytes)) (hm : ∀ m ∈ msgs, m.2.length < 2 ^ 32)
    (next : UInt32 × Bytes) (hn : next.2.length < 2 ^ 32) (p q : Bytes) (hp : packingOf little next.1 next.2 = p ++ q) (hq : q ≠ []) (conn : List Bytes)
    (hc : conn.flatten = (msgs.map fun m => packingOf little m.1 m.2).flatten ++ p) :
    (HandRead.loop (unpackOf little maxPacketSize) conn).1 = (allowed maxPacketSize msgs).filter (fun m => m.2 ≠ []) ∧
    ((HandRead.loop (unpackOf little maxPacketSize) conn).2 = .waits ↔
      (∀ m ∈ msgs, fits maxPacketSize m.2.length) ∧ (8 ≤ p.length → fits maxPacketSize next.2.length)) := by
  induction msgs generalizing conn with
  | nil =>
    rw [loop_begun little maxPacketSize next.1 next.2 p q hn hp hq conn (by simpa using hc)]
    refine ⟨rfl, ?_⟩
    by_cases h : 8 ≤ p.length ∧ ¬ fits maxPacketSize next.2.length
    · rw [if_pos h]; simp [h.1, h.2]
    · rw [if_neg h]
      simp only [true_iff]
      exact ⟨nofun, fun h8 => Classical.not_not.1 fun hf => h ⟨h8, hf⟩⟩
  | cons m msgs ih =>
    simp only [List.map_cons, List.flatten_cons, List.append_assoc] at hc
    obtain ⟨h1, h2⟩ := loop_message little maxPacketSize m.1 m.2 _ (hm m (by simp)) conn hc
    by_cases hf : fits maxPacketSize m.2.length
    · obtain ⟨r, hr, e1, e2⟩ := h1 hf
      obtain ⟨i1, i2⟩ := ih (fun x hx => hm x (by simp [hx])) r hr
      rw [e1, e2, i1, i2]
      refine ⟨?_, ?_⟩
      · unfold allowed
        rw [List.takeWhile_cons]
        by_cases h0 : m.2 = []
        · rw [h0] at hf
          simp only [List.length_nil] at hf
          simp [h0, hf]
        · simp [h0, hf]
      · simp [hf]
    · rw [h2 hf]
      refine ⟨?_, ?_⟩
      · unfold allowed
        rw [List.takeWhile_cons, if_neg (by simpa using hf)]
        rfl
      · simp [hf]

/-- A message without data in between, and the header of one that is too long. -/
example : HandRead.loop (unpackTlv 4) [[0, 0, 0, 1, 0, 0, 0], [2, 65, 66, 0, 0, 0, 9, 0, 0, 0, 0], [0, 0, 0, 5, 0, 0, 0, 1, 7], [0, 0, 0, 6, 0, 0, 0, 5]] = ([(1, [65, 66]), (5, [7])], .refused) := by
  have := C138_exact false 4 [(1, [65, 66]), (9, []), (5, [7])] (by decide) (6, [0, 0, 0, 0, 0]) (by decide) [0, 0, 0, 6, 0, 0, 0, 5] [0, 0, 0, 0, 0] (by decide) (by decide)
    [[0, 0, 0, 1, 0, 0, 0], [2, 65, 66, 0, 0, 0, 9, 0, 0, 0, 0], [0, 0, 0, 5, 0, 0, 0, 1, 7], [0, 0, 0, 6, 0, 0, 0, 5]] (by decide)
  obtain ⟨h1, h2⟩ := this
  apply Prod.ext
  · exact h1.trans (by decide)
  · cases he : (HandRead.loop (unpackTlv 4) [[0, 0, 0, 1, 0, 0, 0], [2, 65, 66, 0, 0, 0, 9, 0, 0, 0, 0], [0, 0, 0, 5, 0, 0, 0, 1, 7], [0, 0, 0, 6, 0, 0, 0, 5]]).2 with
    | refused => rfl
    | waits => exact absurd ((h2.1 he).2 (by decide)) (by decide)

theorem le32_leValue (s : Bytes) (h : s.length = 4) : le32 (leValue s) = s := by
  match s, h with
  | [a, b, c, d], _ =>
    have ha := a.toNat_lt; have hb := b.toNat_lt; have hc := c.toNat_lt; have hd := d.toNat_lt
    simp only [le32, be32, leValue, List.reverse_cons, List.reverse_nil, List.nil_append, List.cons_append, List.cons.injEq, and_true]
    refine ⟨?_, ?_, ?_, ?_⟩ <;> apply UInt8.toNat_inj.1 <;> rw [uint8_ofNat_mod] <;> omega

/-- Any eight bytes are the header of a message. -/
theorem any_head (little : Bool) (h : Bytes) (hl : h.length = 8) : ∃ (id : UInt32) (n : Nat), n < 2 ^ 32 ∧ ∀ data : Bytes, data.length = n → packingOf little id data = h ++ data := by
  have e1 : (h.take 4).length = 4 := by simp [hl]
  have e2 : (h.drop 4).length = 4 := by simp [hl]
  have b1 := beValue_lt (h.take 4)
  have b2 := beValue_lt (h.drop 4)
  have b3 := leValue_lt (h.take 4)
  have b4 := leValue_lt (h.drop 4)
  rw [e1] at b1 b3
  rw [e2] at b2 b4
  cases little with
  | false =>
    refine ⟨UInt32.ofNat (beValue (h.take 4)), beValue (h.drop 4), by omega, ?_⟩
    intro data hd
    show be32 _ ++ be32 _ ++ data = _
    rw [hd, UInt32.toNat_ofNat_of_lt' (by simpa [UInt32.size] using b1), be32_beValue _ e1, be32_beValue _ e2, List.take_append_drop]
  | true =>
    refine ⟨UInt32.ofNat (leValue (h.drop 4)), leValue (h.take 4), by omega, ?_⟩
    intro data hd
    show le32 _ ++ le32 _ ++ data = _
    rw [hd, UInt32.toNat_ofNat_of_lt' (by simpa [UInt32.size] using b4), le32_leValue _ e1, le32_leValue _ e2, List.take_append_drop]

/-- Any bytes are messages and the beginning of a further one. -/
theorem any_bytes (little : Bool) (s : Bytes) : ∃ (msgs : List (UInt32 × Bytes)) (next : UInt32 × Bytes) (p q : Bytes),
    s = (msgs.map fun m => packingOf little m.1 m.2).flatten ++ p ∧ (∀ m ∈ msgs, m.2.length + 8 ≤ s.length) ∧ next.2.length < 2 ^ 32 ∧ packingOf little next.1 next.2 = p ++ q ∧ q ≠ [] := by
  induction hn : s.length using Nat.strongRecOn generalizing s with
  | _ n ih =>
    by_cases h8 : s.length < 8
    · obtain ⟨id, k, hk, hw⟩ := any_head little (s ++ List.replicate (8 - s.length) 0) (by simp; omega)
      refine ⟨[], (id, List.replicate k 0), s, List.replicate (8 - s.length) 0 ++ List.replicate k 0, by simp, by simp, by simpa using hk, ?_, ?_⟩
      · rw [hw _ (by simp), List.append_assoc]
      · intro h
        have := congrArg List.length h
        simp at this
        omega
    · obtain ⟨id, k, hk, hw⟩ := any_head little (s.take 8) (by simp; omega)
      by_cases hs : 8 + k ≤ s.length
      · have hl : ((s.drop 8).take k).length = k := by simp; omega
        obtain ⟨msgs, next, p, q, h1, h2, h3, h4, h5⟩ := ih (s.drop (8 + k)).length (by simp; omega) (s.drop (8 + k)) rfl
        refine ⟨(id, (s.drop 8).take k) :: msgs, next, p, q, ?_, ?_, h3, h4, h5⟩
        · rw [List.map_cons, List.flatten_cons, List.append_assoc, ← h1, hw _ hl]
          have e : s.drop (8 + k) = (s.drop 8).drop k := by simp
          rw [e, List.append_assoc, List.take_append_drop, List.take_append_drop]
        · intro m hm
          rcases List.mem_cons.1 hm with rfl | hm
          · dsimp only; omega
          · have := h2 m hm
            simp only [List.length_drop] at this
            omega
      · refine ⟨[], (id, s.drop 8 ++ List.replicate (8 + k - s.length) 0), s, List.replicate (8 + k - s.length) 0, by simp, by simp, ?_, ?_, ?_⟩
        · simp only [List.length_append, List.length_drop, List.length_replicate]; omega
        · rw [hw _ (by simp; omega), ← List.append_assoc, List.take_append_drop]
        · intro h
          have := congrArg List.length h
          simp at this
          omega

/-- What a connection of the library with that packing hands on. -/
def libraryReads (little : Bool) (reads : List Bytes) : List (UInt32 × Bytes) := (receiveNew (kindOf little) reads).1.map fun r => (r.1.id, r.1.data)

theorem library_messages (little : Bool) (msgs : List (UInt32 × Bytes)) (hm : ∀ m ∈ msgs, m.2.length < 2 ^ 32 - 8) (next : UInt32 × Bytes) (hn : next.2.length < 2 ^ 32) (p q : Bytes)
    (hp : packingOf little next.1 next.2 = p ++ q) (hq : q ≠ []) (reads : List Bytes) (hr : reads.flatten = (msgs.map fun m => packingOf little m.1 m.2).flatten ++ p) :
    libraryReads little reads = msgs := by
  cases little with
  | false =>
    have e : (msgs.map fun m => packingOf false m.1 m.2) = msgs.map fun m => packTlv (newMsgPackage m.1 m.2) := by
      apply List.map_congr_left
      intro m h
      exact (packTlv_eq _ _ (by have := hm m h; omega)).symm
    rw [e] at hr
    exact (C11_tlv_end_to_end msgs hm next hn p q ((packTlv_eq _ _ hn).trans hp) hq reads hr).1
  | true =>
    have e : (msgs.map fun m => packingOf true m.1 m.2) = msgs.map fun m => packLtv (newMsgPackage m.1 m.2) := by
      apply List.map_congr_left
      intro m h
      exact (packLtv_eq _ _ (by have := hm m h; omega)).symm
    rw [e] at hr
    exact (C12_ltv_end_to_end msgs hm next hn p q ((packLtv_eq _ _ hn).trans hp) hq reads hr).1

/-- **C138.** Whatever bytes arrive, and however they are cut: the program that reads with `io.ReadFull` and `Unpack` shows what a connection of the library hands on for the same bytes, cut in any other way, up to the first message longer than
`MaxPacketSize`, and without the messages that have no data. -/
theorem C138_partial (little : Bool) (maxPacketSize : UInt32) (conn reads : List Bytes) (hs : conn.flatten.length < 2 ^ 32) (hr : reads.flatten = conn.flatten) :
    (HandRead.loop (unpackOf little maxPacketSize) conn).1 = (allowed maxPacketSize (libraryReads little reads)).filter (fun m => m.2 ≠ []) := by
  obtain ⟨msgs, next, p, q, h1, h2, h3, h4, h5⟩ := any_bytes little conn.flatten
  have hm : ∀ m ∈ msgs, m.2.length < 2 ^ 32 - 8 := fun m h => by have := h2 m h; omega
  rw [library_messages little msgs hm next h3 p q h4 h5 reads (hr.trans h1)]
  exact (C138_exact little maxPacketSize msgs (fun m h => by have := hm m h; omega) next h3 p q h4 h5 conn h1).1

theorem takeWhile_mem {α : Type} (f : α → Bool) : ∀ (l : List α), ∀ a ∈ l.takeWhile f, f a = true := by
  intro l
  induction l with
  | nil => intro a h; cases h
  | cons b l ih =>
    intro a h
    rw [List.takeWhile_cons] at h
    split at h
    · next hb => exact (List.mem_cons.1 h).elim (fun e => e ▸ hb) (ih a)
    · cases h

theorem takeWhile_self {α : Type} (f : α → Bool) : ∀ (l : List α), (∀ a ∈ l, f a = true) → l.takeWhile f = l := by
  intro l
  induction l with
  | nil => intro _; rfl
  | cons b l ih =>
    intro h
    rw [List.takeWhile_cons, if_pos (h b (by simp)), ih fun a ha => h a (by simp [ha])]

/-- The two agree exactly if all messages have data and none is longer than the limit. -/
theorem C138_agree (little : Bool) (maxPacketSize : UInt32) (conn reads : List Bytes) (hs : conn.flatten.length < 2 ^ 32) (hr : reads.flatten = conn.flatten) :
    (HandRead.loop (unpackOf little maxPacketSize) conn).1 = libraryReads little reads ↔ ∀ m ∈ libraryReads little reads, m.2 ≠ [] ∧ fits maxPacketSize m.2.length := by
  rw [C138_partial little maxPacketSize conn reads hs hr]
  generalize libraryReads little reads = ms
  unfold allowed
  constructor
  · intro h m hm
    rw [← h] at hm
    obtain ⟨h1, h2⟩ := List.mem_filter.1 hm
    exact ⟨by simpa using h2, by simpa using takeWhile_mem _ _ m h1⟩
  · intro h
    rw [takeWhile_self _ _ fun m hm => by simpa using (h m hm).2]
    exact List.filter_eq_self.2 fun m hm => by simpa using (h m hm).1

/-- The property as stated is false: with the limit of the default configuration, a message of 4097 bytes ends the program, and nothing after it is shown; a connection of the library hands on all of it. A message without data is not shown either. -/
theorem C138_refuted : (∃ conn : List Bytes, conn.flatten.length < 2 ^ 32 ∧ HandRead.loop (unpackTlv 4096) conn = ([], .refused) ∧ (receiveNew .tlv conn).1.map (fun r => (r.1.id, r.1.data)) = [(1, List.replicate 4097 7), (2, [7])]) ∧
    ∃ conn : List Bytes, HandRead.loop (unpackTlv 4096) conn = ([(2, [7])], .waits) ∧ (receiveNew .tlv conn).1.map (fun r => (r.1.id, r.1.data)) = [(1, []), (2, [7])] := by
  have key : ∀ msgs : List (UInt32 × Bytes), (∀ m ∈ msgs, m.2.length < 2 ^ 32 - 8) → ∃ conn : List Bytes, conn.flatten.length = (msgs.map fun m => (tlvWire m.1 m.2).length).sum ∧
      (HandRead.loop (unpackTlv 4096) conn).1 = (allowed 4096 msgs).filter (fun m => m.2 ≠ []) ∧ ((HandRead.loop (unpackTlv 4096) conn).2 = .waits ↔ ∀ m ∈ msgs, fits 4096 m.2.length) ∧
      (receiveNew .tlv conn).1.map (fun r => (r.1.id, r.1.data)) = msgs := by
    intro msgs hm
    refine ⟨[(msgs.map fun m => tlvWire m.1 m.2).flatten], by simp [List.length_flatten, List.map_map, Function.comp_def], ?_⟩
    obtain ⟨h1, h2⟩ := C138_exact false 4096 msgs (fun m h => by have := hm m h; omega) (0, []) (by decide) [] (tlvWire 0 []) rfl (by decide) [(msgs.map fun m => tlvWire m.1 m.2).flatten] (by simp [packingOf])
    refine ⟨h1, h2.trans ⟨fun h => h.1, fun h => ⟨h, fun h => absurd h (by simp)⟩⟩, ?_⟩
    exact library_messages false msgs hm (0, []) (by decide) [] (tlvWire 0 []) rfl (by decide) _ (by simp [packingOf])
  constructor
  · have hd : (List.replicate 4097 (7 : UInt8)).length = 4097 := List.length_replicate
    generalize List.replicate 4097 (7 : UInt8) = d at hd
    have hf : ¬ fits 4096 d.length := by rw [hd]; decide
    obtain ⟨conn, h0, h1, h2, h3⟩ := key [(1, d), (2, [7])] (by
      intro m hm
      rcases List.mem_cons.1 hm with rfl | hm
      · dsimp only; omega
      · rcases List.mem_cons.1 hm with rfl | hm
        · decide
        · cases hm)
    refine ⟨conn, ?_, ?_, h3⟩
    · rw [h0]
      have e1 : (tlvWire 1 d).length = 8 + d.length := by
        show (be32 _ ++ be32 _ ++ d).length = _
        rw [List.length_append]; rfl
      have e2 : (tlvWire 2 [7]).length = 9 := rfl
      simp only [List.map_cons, List.map_nil, List.sum_cons, List.sum_nil, e1, e2]
      omega
    · apply Prod.ext
      · rw [h1]
        simp only [allowed, List.takeWhile_cons, decide_eq_false hf]
        rfl
      · cases he : (HandRead.loop (unpackTlv 4096) conn).2 with
        | refused => rfl
        | waits => exact absurd (h2.1 he (1, d) (by simp)) hf
  · obtain ⟨conn, _, h1, h2, h3⟩ := key [(1, []), (2, [7])] (by decide)
    refine ⟨conn, ?_, h3⟩
    apply Prod.ext
    · exact h1.trans (by decide)
    · exact h2.2 (by decide)

/-- Bytes cut in two ways, with the beginning of a message at their end. -/
example : (HandRead.loop (unpackLtv 4096) [[2, 0, 0, 0, 1, 0, 0, 0, 65], [66, 9, 9]]).1 = libraryReads true [[2, 0, 0], [0, 1, 0, 0, 0, 65, 66, 9, 9]] :=
  (C138_agree true 4096 [[2, 0, 0, 0, 1, 0, 0, 0, 65], [66, 9, 9]] [[2, 0, 0], [0, 1, 0, 0, 0, 65, 66, 9, 9]] (by decide) (by decide)).2 (by decide +kernel)

end Zinx.Props
