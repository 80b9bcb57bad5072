import Verif.Props.Frame
import Verif.Props.Crc
import Verif.Lemmas.Decoder

/-!
# End-to-end receive properties of the shipped protocols: C11 .. C13, C16, C17
-/

namespace Zinx.Props

open Zinx Zinx.Spec Zinx.Frame Zinx.Pack Zinx.Decoder Zinx.Crc

theorem fieldValue_small {f : FrameFormat} (hw : f.width ≠ 8) (s : Bytes) :
    f.fieldValue s = uintValue f.order (f.field s) := by
  unfold FrameFormat.fieldValue
  simp only
  rw [if_neg (fun h => hw h.1)]

theorem tlvWire_field (id : UInt32) (data rest : Bytes) : tlvFormat.field (tlvWire id data ++ rest) = be32 data.length := by
  have : (tlvWire id data ++ rest).drop 4 = be32 data.length ++ (data ++ rest) := by
    unfold tlvWire; rw [List.append_assoc, List.append_assoc]; rfl
  simp only [FrameFormat.field, tlvFormat, this]
  rfl

theorem ltvWire_field (id : UInt32) (data rest : Bytes) : ltvFormat.field (ltvWire id data ++ rest) = le32 data.length := by
  have : ltvWire id data ++ rest = le32 data.length ++ (le32 id.toNat ++ data ++ rest) := by
    unfold ltvWire; simp only [List.append_assoc]
  simp only [FrameFormat.field, ltvFormat, this]
  rfl

theorem tlvWire_isFrame (id : UInt32) (data : Bytes) (h : data.length < 2 ^ 32) : tlvFormat.IsFrame (tlvWire id data) := by
  have hl := tlvWire_length id data
  have hf : tlvFormat.fieldValue (tlvWire id data) = data.length := by
    have := tlvWire_field id data []
    rw [List.append_nil] at this
    unfold FrameFormat.fieldValue
    rw [this]
    simp [tlvFormat, uintValue, beValue_be32 _ h]
  refine ⟨?_, ?_, ?_, ?_, ?_, ?_⟩
  · unfold FrameFormat.HasHeader; simp only [tlvFormat]; omega
  · rw [hf]; omega
  · unfold FrameFormat.announced; rw [hf, hl]; simp [tlvFormat]
  · omega
  · rw [hl]; simp only [tlvFormat]; omega
  · simp [tlvFormat]

theorem ltvWire_isFrame (id : UInt32) (data : Bytes) (h : data.length < 2 ^ 32) : ltvFormat.IsFrame (ltvWire id data) := by
  have hl := ltvWire_length id data
  have hf : ltvFormat.fieldValue (ltvWire id data) = data.length := by
    have := ltvWire_field id data []
    rw [List.append_nil] at this
    unfold FrameFormat.fieldValue
    rw [this]
    simp [ltvFormat, uintValue, leValue_le32 _ h]
  refine ⟨?_, ?_, ?_, ?_, ?_, ?_⟩
  · unfold FrameFormat.HasHeader; simp only [ltvFormat]; omega
  · rw [hf]; omega
  · unfold FrameFormat.announced; rw [hf, hl]; simp [ltvFormat]; omega
  · omega
  · rw [hl]; simp only [ltvFormat]; omega
  · simp [ltvFormat]

theorem htlvWire_isFrame (h f : UInt8) (body : Bytes) (hb : body.length ≤ 254) : htlvFormat.IsFrame (htlvWire h f body) := by
  have hl := htlvWire_length h f body
  have hf : htlvFormat.fieldValue (htlvWire h f body) = body.length := by
    have : htlvFormat.field (htlvWire h f body) = [UInt8.ofNat body.length] := by simp [FrameFormat.field, htlvFormat, htlvWire]
    unfold FrameFormat.fieldValue
    rw [this]
    simp only [htlvFormat, uintValue, beValue, uint8_ofNat_mod, List.length_nil]
    rw [if_neg (by omega)]
    omega
  refine ⟨?_, ?_, ?_, ?_, ?_, ?_⟩
  · unfold FrameFormat.HasHeader; simp only [htlvFormat]; omega
  · rw [hf]; omega
  · unfold FrameFormat.announced; rw [hf, hl]; simp [htlvFormat]; omega
  · omega
  · rw [hl]; simp only [htlvFormat]; omega
  · simp [htlvFormat]

/-- A proper prefix of an acceptable frame is incomplete. -/
theorem prefix_incomplete {f : FrameFormat} {p q : Bytes} (h : f.IsFrame (p ++ q)) (hq : q ≠ []) : f.Incomplete p := by
  by_cases hh : f.HasHeader p
  · right
    refine ⟨_, (starts_append hh q _).1 h, ?_⟩
    cases q with
    | nil => exact absurd rfl hq
    | cons _ _ => simp
  · left
    unfold FrameFormat.HasHeader at hh; omega

/-- Frames followed by a proper prefix of a further frame, through the receive loop. -/
theorem receive_frames {k : Kind} {α : Type} (msgs : List α) (wire : α → Bytes) (out : α → Message × Option Resp)
    (hw : ∀ m ∈ msgs, (kindFormat k).IsFrame (wire m))
    (ho : ∀ m ∈ msgs, intercept k (newMessage (UInt32.ofNat (wire m).length) (wire m)) = .ok (out m))
    (rest : Bytes) (hr : (kindFormat k).Incomplete rest) (reads : List Bytes)
    (hreads : reads.flatten = (msgs.map wire).flatten ++ rest) :
    receiveNew k reads =
      (msgs.map out, .running { newFrameDecoder (lengthField k) with inBuf := rest }) := by
  have hs : (kindFormat k).strip = 0 := by cases k <;> rfl
  have hsp : (kindFormat k).Spells ((msgs.map wire).flatten ++ rest) (msgs.map wire) rest := by
    have := spells_frames (f := kindFormat k) (msgs.map wire)
      (by intro fr hfr; obtain ⟨m, hm, rfl⟩ := List.mem_map.1 hfr; exact hw m hm) rest hr
    rw [hs] at this
    simpa only [List.drop_zero, List.map_map, Function.comp_def] using this
  have hD := (C01_chunking_independent (kindFormat k) (kindFormat_valid k) (lengthField k) (kindConfigures k) _ _ _ hsp reads
    hreads).1
  obtain ⟨st, h1, _, h3⟩ := receive_eq k reads _ _ _ hD
  have hdel : ∀ l : List α, (∀ m ∈ l, intercept k (newMessage (UInt32.ofNat (wire m).length) (wire m)) = .ok (out m)) →
      deliver k (l.map wire) = (l.map out, none) := by
    intro l
    induction l with
    | nil => intro _; rfl
    | cons m l ih =>
      intro h
      simp only [List.map_cons, deliver, h m (by simp), ih (fun x hx => h x (by simp [hx]))]
  rw [hdel msgs ho] at h1 h3
  rw [receiveNew, h1, h3 rfl]

/-! ## C11, C12 -/

/-- **C11.** Any messages packed with the TLV format, cut in any way, possibly followed by the beginning of a further message:
the router is given exactly these IDs and payloads in this order, and the connection goes on. -/
theorem C11_tlv_end_to_end (msgs : List (UInt32 × Bytes)) (hm : ∀ m ∈ msgs, m.2.length < 2 ^ 32 - 8)
    (next : UInt32 × Bytes) (hn : next.2.length < 2 ^ 32) (p q : Bytes)
    (hp : packTlv (newMsgPackage next.1 next.2) = p ++ q) (hq : q ≠ []) (reads : List Bytes)
    (hr : reads.flatten = (msgs.map fun m => packTlv (newMsgPackage m.1 m.2)).flatten ++ p) :
    (receiveNew .tlv reads).1.map (fun r => (r.1.id, r.1.data)) = msgs ∧
    (∀ r ∈ (receiveNew .tlv reads).1, r.1.dataLen.toNat = r.1.data.length ∧
      r.2 = some (.tlv r.1.id r.1.dataLen r.1.data)) ∧
    ∃ d, (receiveNew .tlv reads).2 = .running d := by
  have e : (msgs.map fun m => packTlv (newMsgPackage m.1 m.2)) = msgs.map fun m => tlvWire m.1 m.2 := by
    apply List.map_congr_left
    intro m h
    exact packTlv_eq _ _ (by have := hm m h; omega)
  rw [packTlv_eq _ _ hn] at hp
  have := receive_frames (k := .tlv) msgs (fun m => tlvWire m.1 m.2) (fun m => tlvMsg m.1 m.2)
    (fun m h => tlvWire_isFrame _ _ (by have := hm m h; omega)) (fun m h => intercept_tlvWire _ _ (hm m h) _)
    p (prefix_incomplete (q := q) (by rw [← hp]; exact tlvWire_isFrame _ _ hn) hq) reads (by rw [hr, e])
  rw [this]
  refine ⟨?_, ?_, _, rfl⟩
  · simp [tlvMsg, Function.comp_def]
  · intro r h
    obtain ⟨m, hmem, rfl⟩ := List.mem_map.1 h
    have := hm m hmem
    refine ⟨?_, rfl⟩
    simp only [tlvMsg]
    rw [UInt32.toNat_ofNat', Nat.mod_eq_of_lt (by omega)]

example : (receiveNew .tlv [[0, 0, 0, 1], [0, 0, 0, 2, 65], [66, 0, 0, 0, 9, 0, 0, 0, 0, 0, 0]]).1.map
    (fun r => (r.1.id, r.1.data)) = [(1, [65, 66]), (9, [])] :=
  (C11_tlv_end_to_end [(1, [65, 66]), (9, [])] (by decide) (5, [7]) (by decide) [0, 0] [0, 5, 0, 0, 0, 1, 7]
    (by decide) (by decide) _ (by decide)).1

/-- **C12.** The same for LTV. -/
theorem C12_ltv_end_to_end (msgs : List (UInt32 × Bytes)) (hm : ∀ m ∈ msgs, m.2.length < 2 ^ 32 - 8)
    (next : UInt32 × Bytes) (hn : next.2.length < 2 ^ 32) (p q : Bytes)
    (hp : packLtv (newMsgPackage next.1 next.2) = p ++ q) (hq : q ≠ []) (reads : List Bytes)
    (hr : reads.flatten = (msgs.map fun m => packLtv (newMsgPackage m.1 m.2)).flatten ++ p) :
    (receiveNew .ltv reads).1.map (fun r => (r.1.id, r.1.data)) = msgs ∧
    (∀ r ∈ (receiveNew .ltv reads).1, r.1.dataLen.toNat = r.1.data.length ∧
      r.2 = some (.ltv r.1.dataLen r.1.id r.1.data)) ∧
    ∃ d, (receiveNew .ltv reads).2 = .running d := by
  have e : (msgs.map fun m => packLtv (newMsgPackage m.1 m.2)) = msgs.map fun m => ltvWire m.1 m.2 := by
    apply List.map_congr_left
    intro m h
    exact packLtv_eq _ _ (by have := hm m h; omega)
  rw [packLtv_eq _ _ hn] at hp
  have := receive_frames (k := .ltv) msgs (fun m => ltvWire m.1 m.2) (fun m => ltvMsg m.1 m.2)
    (fun m h => ltvWire_isFrame _ _ (by have := hm m h; omega)) (fun m h => intercept_ltvWire _ _ (hm m h) _)
    p (prefix_incomplete (q := q) (by rw [← hp]; exact ltvWire_isFrame _ _ hn) hq) reads (by rw [hr, e])
  rw [this]
  refine ⟨?_, ?_, _, rfl⟩
  · simp [ltvMsg, Function.comp_def]
  · intro r h
    obtain ⟨m, hmem, rfl⟩ := List.mem_map.1 h
    have := hm m hmem
    refine ⟨?_, rfl⟩
    simp only [ltvMsg]
    rw [UInt32.toNat_ofNat', Nat.mod_eq_of_lt (by omega)]

example : (receiveNew .ltv [[2, 0, 0], [0, 1, 0, 0, 0, 65], [66, 0, 0, 0, 0, 9, 0, 0, 0, 1, 0]]).1.map
    (fun r => (r.1.id, r.1.data)) = [(1, [65, 66]), (9, [])] :=
  (C12_ltv_end_to_end [(1, [65, 66]), (9, [])] (by decide) (5, [7]) (by decide) [1, 0] [0, 0, 5, 0, 0, 0, 7]
    (by decide) (by decide) _ (by decide)).1

/-- Remark to C11: a payload of 2^32-8 .. 2^32-1 bytes, although the length field can express it, makes the receiving decoder
panic, because `8 + Length` is computed in 32 bits. -/
theorem C11_remark_largest_lengths_panic (id : UInt32) (data : Bytes) (h1 : 2 ^ 32 - 8 ≤ data.length)
    (h2 : data.length < 2 ^ 32) : intercept .tlv (newMessage (UInt32.ofNat (tlvWire id data).length) (tlvWire id data)) =
      .error .sliceBounds := by
  generalize UInt32.ofNat (tlvWire id data).length = n
  have hlen := tlvWire_length id data
  have hd : (newMessage n (tlvWire id data)).data = tlvWire id data := rfl
  have e3 : ((tlvWire id data).drop 4).take 4 = be32 data.length := by
    have := tlvWire_field id data []
    rwa [List.append_nil] at this
  have hl : (UInt32.ofNat data.length).toNat = data.length := by
    rw [UInt32.toNat_ofNat', Nat.mod_eq_of_lt (by omega)]
  have hhi : ((8 : UInt32) + UInt32.ofNat data.length).toNat < 8 := by
    rw [UInt32.toNat_add, hl]
    have : (8 : UInt32).toNat = 8 := rfl
    rw [this]; omega
  unfold intercept
  simp only
  rw [if_neg (by rw [hd]; omega), hd]
  unfold tlvDecode
  rw [if_neg (by omega), e3, getUint32_be32 _ h2]
  simp only
  rw [if_pos (.inl hhi)]

/-! ## C13 -/

/-- The full claim C13: bodies of 0 to 255 bytes. -/
def HtlvReceivesAll : Prop :=
  ∀ (head funcode : UInt8) (body : Bytes), body.length ≤ 255 → ∀ reads, reads.flatten = htlvWire head funcode body →
    ∃ m, (receiveNew .htlv reads).1 = [m] ∧ m.1.id = funcode.toUInt32

/-- **C13, partial.** Every sequence of frames with bodies of at most 254 bytes, cut in any way, possibly followed by the beginning of a
further one, reaches the router selected by the function code, with head, code, body and checksum split as documented.
Missing: bodies of exactly 255 bytes, for which it is false. -/
theorem C13_partial (frames : List (UInt8 × UInt8 × Bytes)) (hf : ∀ x ∈ frames, x.2.2.length ≤ 254)
    (next : UInt8 × UInt8 × Bytes) (hn : next.2.2.length ≤ 254) (p q : Bytes)
    (hp : htlvWire next.1 next.2.1 next.2.2 = p ++ q) (hq : q ≠ []) (reads : List Bytes)
    (hr : reads.flatten = (frames.map fun x => htlvWire x.1 x.2.1 x.2.2).flatten ++ p) :
    (receiveNew .htlv reads).1 = frames.map (fun x =>
      ({ id := x.2.1.toUInt32, dataLen := UInt32.ofNat (x.2.2.length + 5), data := htlvWire x.1 x.2.1 x.2.2,
         rawData := htlvWire x.1 x.2.1 x.2.2 },
       some (.htlv (htlvWire x.1 x.2.1 x.2.2) x.1 x.2.1 (UInt8.ofNat x.2.2.length) x.2.2
        (crcTrailer (x.1 :: x.2.1 :: UInt8.ofNat x.2.2.length :: x.2.2))))) ∧
    ∃ d, (receiveNew .htlv reads).2 = .running d := by
  have := receive_frames (k := .htlv) frames (fun x => htlvWire x.1 x.2.1 x.2.2) (fun x => htlvMsg x.1 x.2.1 x.2.2)
    (fun x h => htlvWire_isFrame _ _ _ (hf x h)) (fun x _ => intercept_htlvWire _ _ _)
    p (prefix_incomplete (q := q) (by rw [← hp]; exact htlvWire_isFrame _ _ _ hn) hq) reads hr
  rw [this]
  exact ⟨rfl, _, rfl⟩

example : ((receiveNew .htlv [[0xA2, 0x10, 2], [1, 2] ++ crcTrailer [0xA2, 0x10, 2, 1, 2], [0xA2]]).1.map (·.1.id)) = [0x10] := by
  rw [(C13_partial [(0xA2, 0x10, [1, 2])] (by decide +kernel) (0xA2, 0x11, []) (by decide +kernel) [0xA2]
    ([0x11, 0] ++ crcTrailer [0xA2, 0x11, 0]) (by decide +kernel) (by decide +kernel) _ (by decide +kernel)).1]
  decide

/-- **C13 is false of the code**: a frame with a body of 255 bytes is never delivered, and the connection never delivers
anything again. -/
theorem C13_refuted_wedged (head funcode : UInt8) (body : Bytes) (hb : body.length = 255) (reads : List Bytes)
    (hfit : (htlvWire head funcode body ++ reads.flatten).length < 2 ^ 63) :
    (receiveNew .htlv (htlvWire head funcode body :: reads)).1 = [] := by
  have hl := htlvWire_length head funcode body
  have hover : htlvFormat.Overlong (htlvWire head funcode body) 260 := by
    have hf : htlvFormat.fieldValue (htlvWire head funcode body) = 255 := by
      have : htlvFormat.field (htlvWire head funcode body) = [255] := by
        unfold htlvWire; rw [hb]; rfl
      rw [fieldValue_small (by decide), this]
      decide
    refine ⟨?_, ?_, ?_, by decide, by decide⟩
    · unfold FrameFormat.HasHeader; simp only [htlvFormat]; omega
    · rw [hf]; decide
    · unfold FrameFormat.announced; rw [hf]; decide
  have hD := C04_refuted_wedged_forever htlvFormat (kindFormat_valid .htlv) _ (kindConfigures .htlv) _ 260 hover
    (by omega) reads hfit
  obtain ⟨st, h1, _⟩ := receive_eq .htlv _ _ _ _ hD
  rw [receiveNew, h1]
  rfl

theorem C13_refuted : ¬ HtlvReceivesAll := by
  intro h
  have hlen : (List.replicate 255 (0 : UInt8)).length = 255 := List.length_replicate
  generalize List.replicate 255 (0 : UInt8) = body at hlen
  obtain ⟨m, hm, _⟩ := h 0 0 body (by omega) [htlvWire 0 0 body] (List.append_nil _)
  rw [C13_refuted_wedged 0 0 _ hlen [] (by rw [List.flatten_nil, List.append_nil, htlvWire_length]; omega)] at hm
  cases hm

/-! ## C16 -/

/-- **C16 (never reaches a router).** Whatever bytes arrive, in whatever reads, everything that gets past the HTLV decoder is a
well formed frame with a correct checksum, and is passed on under its function code. -/
theorem C16_only_correct_frames_pass (reads : List Bytes) (m : Message × Option Resp) (h : m ∈ (receiveNew .htlv reads).1) :
    ∃ head funcode body, body.length ≤ 254 ∧ m.1.data = htlvWire head funcode body ∧ m.1.id = funcode.toUInt32 ∧
      Accepted m.1.data := by
  have hm := (kindConfigures .htlv).matches (kindFormat_valid .htlv)
  obtain ⟨fs, d', hD, _, hcut⟩ := decodeReads_total (kindFormat_safe .htlv) reads _
    ⟨hm.off, hm.len, hm.adj, hm.strip, hm.order, hm.endOff, by simp [newFrameDecoder], hm.max⟩
  obtain ⟨st, h1, _⟩ := receive_eq .htlv reads _ _ _ hD
  rw [receiveNew, h1] at h
  obtain ⟨fr, hfr, hi⟩ := deliver_mem .htlv fs m h
  have hframe : htlvFormat.IsFrame fr := (hcut fr hfr).isFrame (by simp [kindFormat, htlvFormat])
    (by simp [kindFormat, htlvFormat]) (by simp [kindFormat, htlvFormat])
  have hlen := hframe.length
  have hmax := hframe.le_max
  have hhdr := hframe.header
  have hnn := hframe.nonneg
  unfold FrameFormat.HasHeader at hhdr
  unfold FrameFormat.announced at hlen
  simp only [htlvFormat] at hhdr hmax
  match fr, hhdr with
  | a :: b :: c :: rest, _ =>
    have hc : (htlvFormat.fieldValue (a :: b :: c :: rest)) = c.toNat := by
      have : htlvFormat.field (a :: b :: c :: rest) = [c] := by simp [FrameFormat.field, htlvFormat]
      rw [fieldValue_small (by decide), this]
      simp [htlvFormat, uintValue, beValue]
    rw [hc] at hlen
    simp only [htlvFormat, List.length_cons] at hlen hmax
    have hrl : rest.length = c.toNat + 2 := by omega
    generalize hn : UInt32.ofNat (a :: b :: c :: rest).length = n at hi
    have hd : (newMessage n (a :: b :: c :: rest)).data = a :: b :: c :: rest := rfl
    unfold intercept at hi
    simp only at hi
    rw [if_neg (by rw [hd]; simp only [List.length_cons]; omega), hd] at hi
    unfold htlvDecode at hi
    simp only at hi
    rw [if_neg (by omega)] at hi
    have hlr : (a :: b :: c :: rest).length - 2 = 3 + c.toNat := by simp only [List.length_cons]; omega
    rw [hlr] at hi
    have e1 : (a :: b :: c :: rest).take (3 + c.toNat) = a :: b :: c :: rest.take c.toNat := by
      rw [Nat.add_comm]; rfl
    have e2 : (a :: b :: c :: rest).drop (3 + c.toNat) = rest.drop c.toNat := by
      rw [Nat.add_comm]; rfl
    rw [e1, e2] at hi
    by_cases hcrc : checkCRC (a :: b :: c :: rest.take c.toNat) (rest.drop c.toNat) = true
    · rw [if_pos hcrc] at hi
      simp only [Except.ok.injEq] at hi
      subst hi
      have hbl : (rest.take c.toNat).length = c.toNat := by simp; omega
      have hw : htlvWire a b (rest.take c.toNat) = a :: b :: c :: rest := by
        unfold htlvWire
        rw [hbl, UInt8.ofNat_toNat, ← checkCRC_eq hcrc]
        simp
      refine ⟨a, b, rest.take c.toNat, ?_, ?_, rfl, ?_⟩
      · rw [hbl]; omega
      · rw [hw]; rfl
      · refine ⟨?_, ?_⟩
        · simp [Message.setMsgID, newMessage]
        · simp only [Message.setMsgID, hd]
          rw [hlr, e1, e2]
          exact hcrc
    · rw [if_neg hcrc] at hi
      cases hi

/-- A corrupted frame is in fact stopped. -/
example : receiveNew .htlv [[0xA2, 0x10, 1, 7, 0, 0]] = ([], .panicked .nilDeref) := by decide +kernel
/-- and a correct one passes -/
example : ((receiveNew .htlv [[1, 2, 0] ++ crcTrailer [1, 2, 0]]).1.map (·.1.id)) = [2] := by decide +kernel

/-- The full claim of the second half of C16. -/
def BadFrameNeverKillsProcess : Prop := ∀ (t : Transport) (reads : List Bytes), processSurvives t (receiveNew .htlv reads).2 = true

/-- **C16 is false of the code** for WebSocket: one frame with a wrong checksum ends the whole process. -/
theorem C16_refuted_websocket : ¬ BadFrameNeverKillsProcess := by
  intro h
  have := h .ws [[0xA2, 0x10, 1, 7, 0, 0]]
  exact absurd this (by decide +kernel)

/-- **C16, partial.** Over TCP and KCP no input makes the process end. Missing: WebSocket, for which it is false. -/
theorem C16_partial (t : Transport) (ht : t = .tcp ∨ t = .kcp) (reads : List Bytes) :
    processSurvives t (receiveNew .htlv reads).2 = true := by
  unfold processSurvives
  split
  · rcases ht with rfl | rfl <;> rfl
  · rfl

example : processSurvives .tcp (receiveNew .htlv [[0xA2, 0x10, 1, 7, 0, 0]]).2 = true := C16_partial .tcp (.inl rfl) _

/-- What the HTLV decoder does with a frame as it is cut from the stream: with a correct checksum the frame is passed on, otherwise
the decoder dereferences nil. -/
theorem intercept_htlv_frame {fr : Bytes} (hframe : htlvFormat.IsFrame fr) :
    (Accepted fr → ∃ m, intercept .htlv (newMessage (UInt32.ofNat fr.length) fr) = .ok m ∧ m.1.data = fr) ∧
    (¬ Accepted fr → intercept .htlv (newMessage (UInt32.ofNat fr.length) fr) = .error .nilDeref) := by
  have hlen := hframe.length
  have hhdr := hframe.header
  unfold FrameFormat.HasHeader at hhdr
  unfold FrameFormat.announced at hlen
  simp only [htlvFormat] at hhdr
  match fr, hhdr with
  | a :: b :: c :: rest, _ =>
    have hc : (htlvFormat.fieldValue (a :: b :: c :: rest)) = c.toNat := by
      have : htlvFormat.field (a :: b :: c :: rest) = [c] := by simp [FrameFormat.field, htlvFormat]
      rw [fieldValue_small (by decide), this]
      simp [htlvFormat, uintValue, beValue]
    rw [hc] at hlen
    simp only [htlvFormat, List.length_cons] at hlen
    have hrl : rest.length = c.toNat + 2 := by omega
    have hd : ∀ n, (newMessage n (a :: b :: c :: rest)).data = a :: b :: c :: rest := fun _ => rfl
    have h2 : 2 ≤ (a :: b :: c :: rest).length := by simp only [List.length_cons]; omega
    constructor
    · rintro ⟨-, hcrc⟩
      refine ⟨((newMessage (UInt32.ofNat (a :: b :: c :: rest).length) (a :: b :: c :: rest)).setMsgID b.toUInt32, some (.htlv
        (a :: b :: c :: rest) a b c (((a :: b :: c :: rest).take ((a :: b :: c :: rest).length - 2)).drop 3)
        ((a :: b :: c :: rest).drop ((a :: b :: c :: rest).length - 2)))), ?_, rfl⟩
      unfold intercept
      simp only
      rw [if_neg (by rw [hd]; simp only [List.length_cons]; omega), hd]
      unfold htlvDecode
      simp only
      rw [if_neg (by omega), if_pos hcrc]
    · intro hn
      unfold intercept
      simp only
      rw [if_neg (by rw [hd]; simp only [List.length_cons]; omega), hd]
      unfold htlvDecode
      simp only
      rw [if_neg (by omega), if_neg (fun h => hn ⟨h2, h⟩)]

/-- **C16, exactly what the first wrong frame does.** Frames with correct checksums, then one with a wrong checksum, then any
frames: the router is given the frames before the wrong one, in order, and nothing after it, not even frames that are correct. The
receive loop ends in a panic. -/
theorem C16_first_wrong (good : List Bytes) (bad : Bytes) (more : List Bytes)
    (hf : ∀ fr ∈ good ++ bad :: more, htlvFormat.IsFrame fr) (hg : ∀ fr ∈ good, Accepted fr) (hb : ¬ Accepted bad)
    (t : Bytes) (ht : htlvFormat.Incomplete t) (reads : List Bytes)
    (hr : reads.flatten = (good ++ bad :: more).flatten ++ t) :
    (receiveNew .htlv reads).1.map (·.1.data) = good ∧ (receiveNew .htlv reads).2 = .panicked .nilDeref := by
  have hsp := spells_frames (f := htlvFormat) _ hf t ht
  have e : (good ++ bad :: more).map (·.drop htlvFormat.strip) = good ++ bad :: more := by
    have : (fun x : Bytes => x.drop htlvFormat.strip) = id := by funext x; rfl
    rw [this, List.map_id]
  rw [e] at hsp
  have hD := (C01_chunking_independent htlvFormat (kindFormat_valid .htlv) (lengthField .htlv) (kindConfigures .htlv) _ _ _ hsp
    reads hr).1
  obtain ⟨st, h1, h2, _⟩ := receive_eq .htlv reads _ _ _ hD
  have hdel : ∀ l : List Bytes, (∀ fr ∈ l, htlvFormat.IsFrame fr) → (∀ fr ∈ l, Accepted fr) →
      (deliver .htlv (l ++ bad :: more)).1.map (·.1.data) = l ∧ (deliver .htlv (l ++ bad :: more)).2 = some .nilDeref := by
    intro l
    induction l with
    | nil =>
      intro _ _
      simp only [List.nil_append, deliver, (intercept_htlv_frame (hf bad (by simp))).2 hb]
      exact ⟨rfl, trivial⟩
    | cons fr l ih =>
      intro hl ha
      obtain ⟨m, hm, hmd⟩ := (intercept_htlv_frame (hl fr (by simp))).1 (ha fr (by simp))
      obtain ⟨i1, i2⟩ := ih (fun x hx => hl x (by simp [hx])) (fun x hx => ha x (by simp [hx]))
      simp only [List.cons_append, deliver, hm, List.map_cons, hmd, i1, i2, and_self]
  obtain ⟨d1, d2⟩ := hdel good (fun x hx => hf x (by simp [hx])) hg
  rw [receiveNew, h1]
  exact ⟨d1, h2 _ d2⟩

/-- **C16, the exact condition for WebSocket.** Whatever frames (with bodies up to 254 bytes) arrive, cut into reads in any way: the
process survives exactly if every one of them has a correct checksum. -/
theorem C16_exact (frs : List Bytes) (hf : ∀ fr ∈ frs, htlvFormat.IsFrame fr) (t : Bytes) (ht : htlvFormat.Incomplete t)
    (reads : List Bytes) (hr : reads.flatten = frs.flatten ++ t) :
    processSurvives .ws (receiveNew .htlv reads).2 = true ↔ ∀ fr ∈ frs, Accepted fr := by
  have hsp := spells_frames (f := htlvFormat) _ hf t ht
  constructor
  · intro hs
    by_cases hall : ∀ fr ∈ frs, Accepted fr
    · exact hall
    · exfalso
      have : ∀ l : List Bytes, (¬ ∀ fr ∈ l, Accepted fr) →
          ∃ good bad more, l = good ++ bad :: more ∧ (∀ fr ∈ good, Accepted fr) ∧ ¬ Accepted bad := by
        intro l
        induction l with
        | nil => intro h; exact absurd (fun _ h => nomatch h) h
        | cons x l ih =>
          intro h
          by_cases hx : Accepted x
          · obtain ⟨g, b, m, e, hg, hb⟩ := ih (fun hh => h (by
              intro y hy
              rcases List.mem_cons.1 hy with rfl | hy
              · exact hx
              · exact hh y hy))
            refine ⟨x :: g, b, m, by rw [e]; rfl, ?_, hb⟩
            intro y hy
            rcases List.mem_cons.1 hy with rfl | hy
            · exact hx
            · exact hg y hy
          · exact ⟨[], x, l, rfl, (fun _ h => nomatch h), hx⟩
      obtain ⟨g, b, m, rfl, hg, hb⟩ := this frs hall
      rw [(C16_first_wrong g b m hf hg hb t ht reads hr).2] at hs
      exact absurd hs (by decide)
  · intro ha
    have e : frs.map (·.drop htlvFormat.strip) = frs := by
      have : (fun x : Bytes => x.drop htlvFormat.strip) = id := by funext x; rfl
      rw [this, List.map_id]
    rw [e] at hsp
    have hD := (C01_chunking_independent htlvFormat (kindFormat_valid .htlv) (lengthField .htlv) (kindConfigures .htlv) _ _ _ hsp
      reads hr).1
    obtain ⟨st, h1, _, h3⟩ := receive_eq .htlv reads _ _ _ hD
    have hdel : ∀ l : List Bytes, (∀ fr ∈ l, htlvFormat.IsFrame fr) → (∀ fr ∈ l, Accepted fr) → (deliver .htlv l).2 = none := by
      intro l
      induction l with
      | nil => intro _ _; rfl
      | cons fr l ih =>
        intro hl ha
        obtain ⟨m, hm, -⟩ := (intercept_htlv_frame (hl fr (by simp))).1 (ha fr (by simp))
        simp only [deliver, hm]
        exact ih (fun x hx => hl x (by simp [hx])) (fun x hx => ha x (by simp [hx]))
    rw [receiveNew, h1, h3 (hdel frs hf ha)]
    rfl

/-- One correct frame, one wrong one, then a correct one that is lost. -/
example : (receiveNew .htlv [htlvWire 1 2 [], [0xA2, 0x10, 1, 7, 0, 0], htlvWire 1 3 []]).1.map (·.1.data) = [htlvWire 1 2 []] ∧
    processSurvives .ws (receiveNew .htlv [htlvWire 1 2 [], [0xA2, 0x10, 1, 7, 0, 0], htlvWire 1 3 []]).2 = false ∧
    processSurvives .ws (receiveNew .htlv [htlvWire 1 2 [], htlvWire 1 3 []]).2 = true := by decide +kernel

/-! ## C17 -/

/-- The full claim C17. The receive loop of the code does not take the limit as an input, so it appears only in the conclusion. -/
def PayloadBounded : Prop :=
  ∀ (maxPacketSize : UInt32), 0 < maxPacketSize → ∀ reads, ∀ m ∈ (receiveNew .tlv reads).1,
    m.1.data.length ≤ maxPacketSize.toNat

/-- **C17 is false of the code**: for every limit below 2^32-9, a router can be given any longer payload. -/
theorem C17_refuted_any_limit (maxPacketSize : UInt32) (data : Bytes) (hlong : maxPacketSize.toNat < data.length)
    (hfit : data.length < 2 ^ 32 - 8) :
    ∃ reads, ∃ m ∈ (receiveNew .tlv reads).1, m.1.data = data ∧ maxPacketSize.toNat < m.1.data.length := by
  refine ⟨[packTlv (newMsgPackage 1 data)], ?_⟩
  have := (C11_tlv_end_to_end [(1, data)] (by simpa using hfit) (0, []) (by decide) [] _ rfl (by decide)
    [packTlv (newMsgPackage 1 data)] (by simp)).1
  match hr : (receiveNew .tlv [packTlv (newMsgPackage 1 data)]).1 with
  | [] => rw [hr] at this; simp at this
  | m :: ms =>
    rw [hr] at this
    simp at this
    exact ⟨m, by simp, this.1.2, by rw [this.1.2]; exact hlong⟩

theorem C17_refuted : ¬ PayloadBounded := by
  intro h
  obtain ⟨reads, m, hm, he, _⟩ := C17_refuted_any_limit 4 [1, 2, 3, 4, 5] (by decide) (by decide)
  have := h 4 (by decide) reads m hm
  rw [he] at this
  exact absurd this (by decide)

theorem be32_beValue (s : Bytes) (h : s.length = 4) : be32 (beValue s) = s := by
  match s, h with
  | [a, b, c, d], _ =>
    have ha := a.toNat_lt; have hb := b.toNat_lt; have hc := c.toNat_lt; have hd := d.toNat_lt
    simp only [be32, beValue, List.length_cons, List.length_nil, List.cons.injEq, and_true]
    refine ⟨?_, ?_, ?_, ?_⟩ <;> apply UInt8.toNat_inj.1 <;> rw [uint8_ofNat_mod] <;> omega

/-- **C17, partial.** What does hold: every payload given to a router was announced by the length field of its frame, byte for
byte, so it is below 2^32-8 bytes. Missing: the configured limit, which is not applied when receiving. -/
theorem C17_partial (reads : List Bytes) (m : Message × Option Resp) (h : m ∈ (receiveNew .tlv reads).1) :
    m.1.data.length < 2 ^ 32 - 8 ∧ m.1.rawData = tlvWire m.1.id m.1.data := by
  have hm := (kindConfigures .tlv).matches (kindFormat_valid .tlv)
  obtain ⟨fs, d', hD, _, hcut⟩ := decodeReads_total (kindFormat_safe .tlv) reads _
    ⟨hm.off, hm.len, hm.adj, hm.strip, hm.order, hm.endOff, by simp [newFrameDecoder], hm.max⟩
  obtain ⟨st, h1, _⟩ := receive_eq .tlv reads _ _ _ hD
  rw [receiveNew, h1] at h
  obtain ⟨fr, hfr, hi⟩ := deliver_mem .tlv fs m h
  have hframe : tlvFormat.IsFrame fr := (hcut fr hfr).isFrame (by simp [kindFormat, tlvFormat])
    (by simp [kindFormat, tlvFormat]) (by simp [kindFormat, tlvFormat])
  have hhdr : 8 ≤ fr.length := hframe.header
  have hlen := hframe.length
  unfold FrameFormat.announced at hlen
  rw [fieldValue_small (by decide)] at hlen
  unfold FrameFormat.field at hlen
  simp only [tlvFormat, uintValue] at hlen
  generalize hn : UInt32.ofNat fr.length = n at hi
  have hd : (newMessage n fr).data = fr := rfl
  unfold intercept at hi
  simp only at hi
  rw [if_neg (by rw [hd]; omega), hd] at hi
  unfold tlvDecode at hi
  rw [if_neg (by omega)] at hi
  simp only at hi
  have hv := beValue_lt ((fr.drop 4).take 4)
  have hl4 : ((fr.drop 4).take 4).length = 4 := by simp; omega
  have hl4' : (fr.take 4).length = 4 := by simp; omega
  rw [hl4] at hv
  have h256 : (256 : Nat) ^ 4 = 2 ^ 32 := by decide
  have hv2 := beValue_lt (fr.take 4)
  rw [hl4'] at hv2
  have hg : (getUint32 .big ((fr.drop 4).take 4)).toNat = beValue ((fr.drop 4).take 4) := by
    unfold getUint32
    rw [binaryUint_eq, UInt32.toNat_ofNat', Nat.mod_eq_of_lt (by simp only [uintValue]; omega)]; rfl
  have hg2 : (getUint32 .big (fr.take 4)).toNat = beValue (fr.take 4) := by
    unfold getUint32
    rw [binaryUint_eq, UInt32.toNat_ofNat', Nat.mod_eq_of_lt (by simp only [uintValue]; omega)]; rfl
  generalize getUint32 .big ((fr.drop 4).take 4) = L at hi hg
  generalize getUint32 .big (fr.take 4) = T at hi hg2
  split at hi
  · cases hi
  · rename_i tag len val hif
    split at hif
    · cases hif
    · rename_i hc
      simp only [Except.ok.injEq, Prod.mk.injEq] at hif
      obtain ⟨rfl, rfl, rfl⟩ := hif
      simp only [Except.ok.injEq] at hi
      subst hi
      have h8 : (8 : UInt32).toNat = 8 := rfl
      have hadd : ((8 : UInt32) + L).toNat = (8 + L.toNat) % 2 ^ 32 := by rw [UInt32.toNat_add, h8]
      rw [hadd] at hc
      have hnw : (8 + L.toNat) % 2 ^ 32 = 8 + L.toNat := by
        have := L.toNat_lt
        omega
      have hfl : (8 + L.toNat) = fr.length := by omega
      simp only [Message.setMsgID, Message.setData, Message.setDataLen, newMessage]
      rw [hadd, hnw, hfl, List.take_length]
      constructor
      · simp; omega
      · unfold tlvWire
        rw [hg2, be32_beValue _ hl4']
        have : (fr.drop 8).length = beValue ((fr.drop 4).take 4) := by simp; omega
        rw [this, be32_beValue _ hl4]
        have e : fr.drop 8 = (fr.drop 4).drop 4 := by simp
        rw [List.append_assoc, e, List.take_append_drop, List.take_append_drop]

example : ∃ m ∈ (receiveNew .tlv [[0, 0, 0, 1, 0, 0, 0, 2, 65, 66]]).1, m.1.data = [65, 66] := by decide +kernel

/-! ## C74 -/

/-- The least number of bytes a decoder takes for a message. -/
def minBytes : Kind → Nat
  | .tlv => 8
  | .ltv => 8
  | .htlv => 5

/-- **C74.** Without frame decoder and decoder, and also for reads that are too short for the decoder, the router gets exactly one message for each read, in order: ID 0, all bytes of the read as data and
raw data, their number as length, no response set. -/
theorem C74_raw (k : Option Kind) (reads : List Bytes) (hs : ∀ k', k = some k' → ∀ r ∈ reads, r.length < minBytes k') :
    (deliverRaw k reads).2 = none ∧ (deliverRaw k reads).1.length = reads.length ∧
    ∀ (i : Nat) (r : Bytes), reads[i]? = some r → (deliverRaw k reads).1[i]? = some ((⟨UInt32.ofNat r.length, 0, r, r⟩ : Message), none) := by
  have hmap : deliverRaw k reads = (reads.map fun r => ((⟨UInt32.ofNat r.length, 0, r, r⟩ : Message), none), none) := by
    cases k with
    | none => rfl
    | some k =>
      replace hs := hs k rfl
      show deliver k reads = _
      induction reads with
      | nil => rfl
      | cons r rs ih =>
        have hi : intercept k (newMessage (UInt32.ofNat r.length) r) = .ok (⟨UInt32.ofNat r.length, 0, r, r⟩, none) := by
          have hr := hs r (List.mem_cons_self ..)
          have hd : (newMessage (UInt32.ofNat r.length) r).data = r := rfl
          cases k <;> simp only [intercept, hd, minBytes] at hr ⊢ <;> rw [if_pos hr] <;> rfl
        rw [deliver, hi, ih (fun x hx => hs x (List.mem_cons_of_mem _ hx))]
        rfl
  rw [hmap]
  refine ⟨rfl, List.length_map .., fun i r h => ?_⟩
  simp [h]

/-- A read of three bytes with the TLV decoder. -/
example : (∀ k', some Kind.tlv = some k' → ∀ r ∈ [[1, 2, 3]], (r : Bytes).length < minBytes k') ∧ (deliverRaw (some .tlv) [[1, 2, 3]]).1 = [(⟨3, 0, [1, 2, 3], [1, 2, 3]⟩, none)] :=
  ⟨fun k' h r hr => by cases h; simp at hr; subst hr; decide, by decide⟩

end Zinx.Props
