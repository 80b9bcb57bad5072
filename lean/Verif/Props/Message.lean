import Verif.Props.Options

/-!
# C115: what a receiver makes of a message that was changed by its setters
-/

namespace Zinx.Props

open Zinx Zinx.Spec Zinx.Frame Zinx.Pack Zinx.Decoder Zinx.Options

/-- The bytes of a message on the wire. -/
def wireOf : PackKind → UInt32 → Bytes → Bytes
  | .tlv => tlvWire
  | .ltv => ltvWire

theorem heard_spells {k : Kind} {s : Bytes} {fs : List Bytes} {t : Bytes} (hs : (kindFormat k).Spells s fs t) {reads : List Bytes} (hr : reads.flatten = s) :
    (receiveNew k reads).1 = (deliver k fs).1 := by
  have hD := (C01_chunking_independent (kindFormat k) (kindFormat_valid k) (lengthField k) (kindConfigures k) _ _ _ hs reads hr).1
  obtain ⟨st, h1, -, -⟩ := receive_eq k reads _ _ _ hD
  rw [receiveNew, h1]

theorem spells_kind (p : PackKind) (s : Bytes) : ∃ fs t, (kindFormat (decoderOf p)).Spells s fs t := by
  cases p <;> exact spells_all (kindFormat_safe _) (by simp [decoderOf, kindFormat, tlvFormat, ltvFormat]) s

/-- What is given to the router, ID and data, from a stream in whatever pieces. -/
def given (p : PackKind) (reads : List Bytes) : List (UInt32 × Bytes) := (receiveNew (decoderOf p) reads).1.map fun m => (m.1.id, m.1.data)

theorem wireOf_frame (p : PackKind) (id : UInt32) (data : Bytes) (h : data.length < 2 ^ 32) : (kindFormat (decoderOf p)).IsFrame (wireOf p id data) := by
  cases p
  · exact tlvWire_isFrame id data h
  · exact ltvWire_isFrame id data h

theorem wireOf_intercept (p : PackKind) (id : UInt32) (data : Bytes) (h : data.length < 2 ^ 32 - 8) (n : UInt32) :
    ∃ m r, intercept (decoderOf p) (newMessage n (wireOf p id data)) = .ok (m, r) ∧ m.id = id ∧ m.data = data := by
  cases p
  · exact ⟨_, _, intercept_tlvWire id data h n, rfl, rfl⟩
  · exact ⟨_, _, intercept_ltvWire id data h n, rfl, rfl⟩

/-- A whole message in front of anything. -/
theorem given_front (p : PackKind) (id : UInt32) (data rest : Bytes) (h : data.length < 2 ^ 32 - 8) (reads : List Bytes) (hr : reads.flatten = wireOf p id data ++ rest) :
    given p reads = (id, data) :: given p [rest] := by
  obtain ⟨fs, t, hs⟩ := spells_kind p rest
  have hf := wireOf_frame p id data (by omega)
  have hh : (kindFormat (decoderOf p)).HasHeader (wireOf p id data) := hf.header
  have h0 : (kindFormat (decoderOf p)).strip = 0 := by cases p <;> rfl
  have hs' : (kindFormat (decoderOf p)).Spells (wireOf p id data ++ rest) (wireOf p id data :: fs) t := by
    have := FrameFormat.Spells.frame (s := wireOf p id data ++ rest) (n := (wireOf p id data).length) ((starts_append hh rest _).2 hf) (by simp) (by simpa using hs)
    simpa [h0] using this
  unfold given
  rw [heard_spells hs' hr, heard_spells hs (by simp : [rest].flatten = rest)]
  obtain ⟨m, r, e, e1, e2⟩ := wireOf_intercept p id data h (UInt32.ofNat (wireOf p id data).length)
  simp [deliver, e, e1, e2]

/-- A message that is not complete. -/
theorem given_none (p : PackKind) (s : Bytes) (h : (kindFormat (decoderOf p)).Incomplete s) (reads : List Bytes) (hr : reads.flatten = s) : given p reads = [] := by
  unfold given
  rw [heard_spells (.wait h) hr]
  rfl

theorem pack_eq (p : PackKind) (m : Message) : ∀ rest, (m.dataLen.toNat ≤ (m.data ++ rest).length →
      p.pack m ++ rest = wireOf p m.id ((m.data ++ rest).take m.dataLen.toNat) ++ (m.data ++ rest).drop m.dataLen.toNat) := by
  intro rest hl
  have e : ((m.data ++ rest).take m.dataLen.toNat).length = m.dataLen.toNat := by rw [List.length_take]; omega
  cases p
  · simp only [PackKind.pack, packTlv, wireOf, tlvWire, putUint32_big, e, List.append_assoc, List.take_append_drop]
  · simp only [PackKind.pack, packLtv, wireOf, ltvWire, putUint32_little, e, List.append_assoc, List.take_append_drop]

/-- **C115 (what follows).** A packed message, whatever its length field, in front of anything: once enough bytes have arrived, the receiver takes exactly as many bytes as the length field says for the data,
be they of this message or of what follows, and goes on behind them. -/
theorem C115_taken (p : PackKind) (m : Message) (rest : Bytes) (hn : m.dataLen.toNat < 2 ^ 32 - 8) (hl : m.dataLen.toNat ≤ (m.data ++ rest).length) (reads : List Bytes)
    (hr : reads.flatten = p.pack m ++ rest) :
    given p reads = (m.id, (m.data ++ rest).take m.dataLen.toNat) :: given p [(m.data ++ rest).drop m.dataLen.toNat] := by
  rw [pack_eq p m rest hl] at hr
  exact given_front p _ _ _ (by rw [List.length_take]; omega) reads hr

/-- Until then it is given nothing. -/
theorem C115_waits (p : PackKind) (m : Message) (rest : Bytes) (hl : (m.data ++ rest).length < m.dataLen.toNat) (reads : List Bytes) (hr : reads.flatten = p.pack m ++ rest) :
    given p reads = [] := by
  let more := List.replicate (m.dataLen.toNat - (m.data ++ rest).length) (0 : UInt8)
  have hm : (m.data ++ (rest ++ more)).length = m.dataLen.toNat := by
    have : more.length = m.dataLen.toNat - (m.data ++ rest).length := List.length_replicate ..
    simp only [List.length_append] at hl this ⊢
    omega
  have he := pack_eq p m (rest ++ more) (by omega)
  rw [← hm, List.take_length, List.drop_length, List.append_nil, ← List.append_assoc] at he
  refine given_none p _ (prefix_incomplete (q := more) ?_ ?_) reads hr
  · rw [he]
    exact wireOf_frame p _ _ (by rw [hm]; exact m.dataLen.toNat_lt)
  · intro h
    have : more.length = m.dataLen.toNat - (m.data ++ rest).length := List.length_replicate ..
    rw [h] at this
    simp only [List.length_nil] at this
    omega

theorem given_empty (p : PackKind) : given p [[]] = [] :=
  given_none p [] (.inl (by cases p <;> decide)) _ rfl

/-- **C115.** A message of fewer than 2^32-8 bytes, however it was built and changed, is given to the router with its ID and data, and nothing else is, exactly if its length field is the length of its data. -/
theorem C115_exact (p : PackKind) (m : Message) (h : m.data.length < 2 ^ 32 - 8) (reads : List Bytes) (hr : reads.flatten = p.pack m) :
    given p reads = [(m.id, m.data)] ↔ m.dataLen.toNat = m.data.length := by
  constructor
  · intro hg
    by_cases hl : m.dataLen.toNat ≤ m.data.length
    · rw [C115_taken p m [] (by omega) (by simpa using hl) reads (by simpa using hr)] at hg
      simp only [List.append_nil, List.cons.injEq, Prod.mk.injEq, true_and] at hg
      have := congrArg List.length hg.1
      rw [List.length_take] at this
      omega
    · rw [C115_waits p m [] (by simp; omega) reads (by simpa using hr)] at hg
      cases hg
  · intro he
    rw [C115_taken p m [] (by omega) (by simp [he]) reads (by simpa using hr)]
    simp [he, given_empty]

/-- A message of two bytes whose ID was set. -/
example : given .tlv [[0, 0, 0, 9], [0, 0, 0, 2, 65, 66]] = [(9, [65, 66])] :=
  (C115_exact .tlv ((newMsgPackage 1 [65, 66]).setMsgID 9) (by decide) _ (by decide)).2 (by decide)

/-- A message whose length field says three, in front of other bytes. -/
example : given .ltv [[3, 0, 0, 0, 1, 0, 0, 0, 65, 66, 5]] = [(1, [65, 66, 5])] := by
  rw [C115_taken .ltv (newMessageByMsgId 1 3 [65, 66]) [5] (by decide) (by decide) _ (by decide)]
  have : given .ltv [[]] = [] := given_empty .ltv
  simp [newMessageByMsgId, this]

/-! ## In terms of the calls -/

/-- The data set last, by `Init` or `SetData`. -/
def lastData (d : Bytes) (ops : List MsgOp) : Bytes :=
  ((ops.filterMap fun | .init _ x => some x | .setData x => some x | _ => none).getLast?).getD d

/-- The length set last, by `Init` or `SetDataLen`. -/
def lastLen (n : UInt32) (ops : List MsgOp) : UInt32 :=
  ((ops.filterMap fun | .init _ x => some (UInt32.ofNat x.length) | .setDataLen x => some x | _ => none).getLast?).getD n

/-- The ID set last, by `Init` or `SetMsgID`. -/
def lastId (i : UInt32) (ops : List MsgOp) : UInt32 :=
  ((ops.filterMap fun | .init x _ => some x | .setMsgID x => some x | _ => none).getLast?).getD i

theorem after_ops (ops : List MsgOp) : ∀ m : Message, (ops.foldl Message.op m).data = lastData m.data ops ∧ (ops.foldl Message.op m).dataLen = lastLen m.dataLen ops ∧
    (ops.foldl Message.op m).id = lastId m.id ops := by
  induction ops with
  | nil => intro m; exact ⟨rfl, rfl, rfl⟩
  | cons o ops ih =>
    intro m
    have := ih (m.op o)
    rw [List.foldl_cons, this.1, this.2.1, this.2.2]
    cases o <;>
      simp [lastData, lastLen, lastId, Message.op, Message.init, Message.setData, Message.setDataLen, Message.setMsgID, List.getLast?_cons]

/-- The full claim C115: a message, made by `NewMsgPackage` and changed by any calls of its setters, reaches the router with the ID and the data set last. -/
def SettersSuffice : Prop :=
  ∀ (id : UInt32) (data : Bytes) (ops : List MsgOp) (p : PackKind), (lastData data ops).length < 2 ^ 32 - 8 →
    given p [p.pack (ops.foldl Message.op (newMsgPackage id data))] = [(lastId id ops, lastData data ops)]

/-- **C115, partial.** It does exactly if the length set last is the length of the data set last. Missing: `SetData` does not set the length. -/
theorem C115_partial (id : UInt32) (data : Bytes) (ops : List MsgOp) (p : PackKind) (h : (lastData data ops).length < 2 ^ 32 - 8) (reads : List Bytes)
    (hr : reads.flatten = p.pack (ops.foldl Message.op (newMsgPackage id data))) :
    given p reads = [(lastId id ops, lastData data ops)] ↔ (lastLen (UInt32.ofNat data.length) ops).toNat = (lastData data ops).length := by
  obtain ⟨h1, h2, h3⟩ := after_ops ops (newMsgPackage id data)
  have := C115_exact p (ops.foldl Message.op (newMsgPackage id data)) (by rw [h1]; exact h) reads hr
  rw [h1, h2, h3] at this
  exact this

/-- `Init` sets all that is needed; the ID may still be changed. -/
theorem C115_init (m : Message) (id i : UInt32) (data : Bytes) (p : PackKind) (h : data.length < 2 ^ 32 - 8) (reads : List Bytes) :
    (reads.flatten = p.pack (m.init id data) → given p reads = [(id, data)]) ∧ (reads.flatten = p.pack ((m.init id data).setMsgID i) → given p reads = [(i, data)]) := by
  have hl : (UInt32.ofNat data.length).toNat = data.length := by rw [UInt32.toNat_ofNat', Nat.mod_eq_of_lt (by omega)]
  exact ⟨fun hr => (C115_exact p (m.init id data) h reads hr).2 hl, fun hr => (C115_exact p ((m.init id data).setMsgID i) h reads hr).2 hl⟩

example : given .tlv [[0, 0, 0, 3, 0, 0, 0, 1, 7]] = [(3, [7])] :=
  (C115_init (newMsgPackage 1 [65, 66]) 3 0 [7] .tlv (by decide) _).1 (by decide)

/-- **C115 is false of the code.** `SetData` with longer data: the receiver is given the old number of bytes. -/
theorem C115_refuted : ¬ SettersSuffice := by
  intro h
  have h1 := h 1 [65] [.setData [66, 67]] .tlv (by decide)
  have := (C115_partial 1 [65] [.setData [66, 67]] .tlv (by decide) _ (by simp)).1 h1
  revert this
  decide

/-- **C115 is false of the code.** `SetData` with shorter data: the receiver takes the missing bytes from the next message, and with them the ID and the data of that one are lost. -/
theorem C115_refuted_swallows :
    given .tlv [packTlv ((newMsgPackage 1 [65, 66]).setData [67]) ++ packTlv (newMsgPackage 5 [])] = [(1, [67, 0])] := by
  rw [C115_taken .tlv ((newMsgPackage 1 [65, 66]).setData [67]) (packTlv (newMsgPackage 5 [])) (by decide) (by decide) _ (by simp [PackKind.pack])]
  have : given .tlv [[0, 0, 5, 0, 0, 0, 0]] = [] := given_none .tlv _ (.inl (by decide)) _ rfl
  have e : (((newMsgPackage 1 [65, 66]).setData [67]).data ++ packTlv (newMsgPackage 5 [])).drop ((newMsgPackage 1 [65, 66]).setData [67]).dataLen.toNat = [0, 0, 5, 0, 0, 0, 0] := by decide
  rw [e, this]
  decide

/-! ## One packing, the other decoder -/

/-- The number whose big-endian bytes are the little-endian bytes of `v`. -/
def swap32 (v : UInt32) : UInt32 := getUint32 .big (putUint32 .little v)

theorem be32_swap32 (v : UInt32) : putUint32 .big (swap32 v) = putUint32 .little v := by
  have h4 : (putUint32 .little v).length = 4 := by rw [putUint32_little, le32_length]
  have hlt := beValue_lt (putUint32 .little v)
  rw [h4] at hlt
  rw [putUint32_big]
  unfold swap32 getUint32
  rw [binaryUint_eq, UInt32.toNat_ofNat', Nat.mod_eq_of_lt (by simpa only [uintValue] using hlt)]
  exact be32_beValue _ h4

theorem le32_swap32 (v : UInt32) : putUint32 .little (swap32 v) = putUint32 .big v := by
  have := be32_swap32 v
  rw [putUint32_big, putUint32_little] at this ⊢
  have h2 := congrArg List.reverse this
  simpa [le32] using h2

theorem swap32_swap32 (v : UInt32) : swap32 (swap32 v) = v := by
  have h1 : putUint32 .big (swap32 (swap32 v)) = putUint32 .big v := by rw [be32_swap32, le32_swap32]
  rw [putUint32_big, putUint32_big] at h1
  have h2 := congrArg (getUint32 .big) h1
  rw [getUint32_be32 _ (UInt32.toNat_lt _), getUint32_be32 _ (UInt32.toNat_lt _)] at h2
  simpa using h2

theorem given_swapped (p : PackKind) (id : UInt32) (data : Bytes) (h : data.length < 2 ^ 32 - 8) (reads : List Bytes)
    (hr : reads.flatten = p.pack { newMsgPackage id data with id := swap32 (UInt32.ofNat data.length), dataLen := swap32 id }) :
    given p reads = [(id, data)] ↔ id = swap32 (UInt32.ofNat data.length) := by
  constructor
  · intro hg
    by_cases hl : (swap32 id).toNat ≤ data.length
    · rw [C115_taken p { newMsgPackage id data with id := swap32 (UInt32.ofNat data.length), dataLen := swap32 id } [] (by show (swap32 id).toNat < _; omega) (by simpa [newMsgPackage] using hl) reads (by simpa using hr)] at hg
      simp only [List.cons.injEq, Prod.mk.injEq] at hg
      exact hg.1.1.symm
    · rw [C115_waits p { newMsgPackage id data with id := swap32 (UInt32.ofNat data.length), dataLen := swap32 id } [] (by simpa [newMsgPackage] using hl) reads (by simpa using hr)] at hg
      cases hg
  · intro he
    have h1 := (C115_exact p { newMsgPackage id data with id := swap32 (UInt32.ofNat data.length), dataLen := swap32 id } (by simpa [newMsgPackage] using h) reads hr).2 (by
      show (swap32 id).toNat = data.length
      rw [he, swap32_swap32, UInt32.toNat_ofNat', Nat.mod_eq_of_lt (by omega)])
    rw [h1, ← he]
    rfl

/-- **C114.** A message packed in one of the two ways is, for the decoder of the other, the message whose ID is the byte-swapped length and whose length is the byte-swapped ID; `C115_taken` and `C115_waits` say
what becomes of it. -/
theorem C114_crossed (m : Message) : packLtv m = packTlv { m with id := swap32 m.dataLen, dataLen := swap32 m.id } ∧
    packTlv m = packLtv { m with id := swap32 m.dataLen, dataLen := swap32 m.id } := by
  simp [packLtv, packTlv, be32_swap32, le32_swap32]

/-- **C114.** So a message sent with one packing is given unchanged by the decoder of the other exactly if its ID is its byte-swapped length. -/
theorem C114_message (id : UInt32) (data : Bytes) (h : data.length < 2 ^ 32 - 8) (reads : List Bytes) :
    (reads.flatten = packLtv (newMsgPackage id data) → (given .tlv reads = [(id, data)] ↔ id = swap32 (UInt32.ofNat data.length))) ∧
    (reads.flatten = packTlv (newMsgPackage id data) → (given .ltv reads = [(id, data)] ↔ id = swap32 (UInt32.ofNat data.length))) := by
  constructor
  · intro hr
    rw [(C114_crossed _).1] at hr
    exact given_swapped .tlv id data h reads hr
  · intro hr
    rw [(C114_crossed _).2] at hr
    exact given_swapped .ltv id data h reads hr

/-- A message of one byte with the ID 2^24. -/
example : given .tlv [packLtv (newMsgPackage 0x1000000 [65])] = [(0x1000000, [65])] :=
  ((C114_message 0x1000000 [65] (by decide) _).1 (by simp)).2 (by decide +kernel)

end Zinx.Props
