import Verif.Lemmas.Pack
import Verif.Lemmas.FrameTotal
import Verif.Lemmas.CrcDetect

namespace Zinx.Decoder

open Zinx Zinx.Spec Zinx.Frame Zinx.Pack Zinx.Crc

theorem deliver_append (k : Kind) (a b : List Bytes) :
    deliver k (a ++ b) = match deliver k a with
      | (ms, some p) => (ms, some p)
      | (ms, none) => (ms ++ (deliver k b).1, (deliver k b).2) := by
  induction a with
  | nil => simp [deliver]
  | cons fr a ih =>
    simp only [List.cons_append, deliver]
    cases intercept k (newMessage (UInt32.ofNat fr.length) fr) with
    | error p => rfl
    | ok m =>
      simp only [ih]
      rcases deliver k a with ⟨ms, _ | p⟩ <;> simp

/-- The receive loop delivers what the decoder makes of the frames, up to the first panic. -/
theorem receive_eq (k : Kind) (reads : List Bytes) : ∀ (d : FrameDecoder) (fs : List Bytes) (d' : FrameDecoder),
    decodeReads d reads = .ret fs d' →
    ∃ st, receive k d reads = ((deliver k fs).1, st) ∧
      (∀ p, (deliver k fs).2 = some p → st = .panicked p) ∧ ((deliver k fs).2 = none → st = .running d') := by
  induction reads with
  | nil =>
    intro d fs d' h
    simp only [decodeReads, Outcome.ret.injEq] at h
    obtain ⟨rfl, rfl⟩ := h
    exact ⟨.running d, by simp [receive, deliver], by simp [deliver], by simp⟩
  | cons r rs ih =>
    intro d fs d' h
    simp only [decodeReads] at h
    cases hD : Decode d r with
    | panic p => rw [hD] at h; cases h
    | hang => rw [hD] at h; cases h
    | ret fs1 d1 =>
      rw [hD] at h
      simp only at h
      cases hR : decodeReads d1 rs with
      | panic p => rw [hR] at h; cases h
      | hang => rw [hR] at h; cases h
      | ret fs2 d2 =>
        rw [hR] at h
        simp only [Outcome.ret.injEq] at h
        obtain ⟨rfl, rfl⟩ := h
        obtain ⟨st, h1, h2, h3⟩ := ih d1 fs2 d2 hR
        have ha := deliver_append k fs1 fs2
        rcases hdel : deliver k fs1 with ⟨ms, _ | p⟩
        · rw [hdel] at ha
          simp only at ha
          refine ⟨st, ?_, ?_, ?_⟩
          · simp only [receive, hD, hdel, h1, ha]
          · intro p hp; rw [ha] at hp; exact h2 p hp
          · intro hn; rw [ha] at hn; exact h3 hn
        · rw [hdel] at ha
          simp only at ha
          refine ⟨.panicked p, ?_, ?_, ?_⟩
          · simp only [receive, hD, hdel, ha]
          · intro q hq; rw [ha] at hq; simp at hq; rw [hq]
          · intro hn; rw [ha] at hn; simp at hn

/-- Whatever the receive loop hands out came out of the frame decoder and passed the interceptor. -/
theorem deliver_mem (k : Kind) (fs : List Bytes) (m : Message × Option Resp) (h : m ∈ (deliver k fs).1) :
    ∃ fr ∈ fs, intercept k (newMessage (UInt32.ofNat fr.length) fr) = .ok m := by
  induction fs with
  | nil => simp [deliver] at h
  | cons fr fs ih =>
    simp only [deliver] at h
    cases hi : intercept k (newMessage (UInt32.ofNat fr.length) fr) with
    | error p => rw [hi] at h; simp at h
    | ok m' =>
      rw [hi] at h
      simp only [List.mem_cons] at h
      rcases h with rfl | h
      · exact ⟨fr, by simp, hi⟩
      · obtain ⟨fr', h1, h2⟩ := ih h
        exact ⟨fr', by simp [h1], h2⟩

theorem deliver_all_ok (k : Kind) (fs : List Bytes) (g : Bytes → Message × Option Resp)
    (h : ∀ fr ∈ fs, intercept k (newMessage (UInt32.ofNat fr.length) fr) = .ok (g fr)) :
    deliver k fs = (fs.map g, none) := by
  induction fs with
  | nil => rfl
  | cons fr fs ih =>
    simp only [deliver, h fr (by simp), ih (fun x hx => h x (by simp [hx])), List.map_cons]

/-! ## The interceptors on well formed frames -/

theorem take_append_len {a b : Bytes} {n : Nat} (h : a.length = n) : (a ++ b).take n = a := by
  rw [← h]; simp

theorem drop_append_len {a b : Bytes} {n : Nat} (h : a.length = n) : (a ++ b).drop n = b := by
  rw [← h]; simp

theorem tlvWire_length (id : UInt32) (data : Bytes) : (tlvWire id data).length = data.length + 8 := by
  simp [tlvWire, be32_length]; omega

theorem ltvWire_length (id : UInt32) (data : Bytes) : (ltvWire id data).length = data.length + 8 := by
  simp [ltvWire, le32_length]; omega

theorem tlvDecode_wire (id : UInt32) (data : Bytes) (h : data.length < 2 ^ 32 - 8) :
    tlvDecode (tlvWire id data) = .ok (id, UInt32.ofNat data.length, data) := by
  have hlen := tlvWire_length id data
  have e1 : (tlvWire id data).take 4 = be32 id.toNat := by
    unfold tlvWire; rw [List.append_assoc]; exact take_append_len (be32_length _)
  have e2 : (tlvWire id data).drop 4 = be32 data.length ++ data := by
    unfold tlvWire; rw [List.append_assoc]; exact drop_append_len (be32_length _)
  have e3 : ((tlvWire id data).drop 4).take 4 = be32 data.length := by
    rw [e2]; exact take_append_len (be32_length _)
  have e4 : (tlvWire id data).drop 8 = data := by
    unfold tlvWire; exact drop_append_len (by simp [be32_length])
  have hl : (UInt32.ofNat data.length).toNat = data.length := by
    rw [UInt32.toNat_ofNat', Nat.mod_eq_of_lt (by omega)]
  have hhi : ((8 : UInt32) + UInt32.ofNat data.length).toNat = data.length + 8 := by
    rw [UInt32.toNat_add, hl]
    have : (8 : UInt32).toNat = 8 := rfl
    rw [this]; omega
  unfold tlvDecode
  rw [if_neg (by omega), e1, e3, getUint32_be32 _ (UInt32.toNat_lt id), getUint32_be32 _ (by omega)]
  simp only [hhi]
  rw [if_neg (by omega), ← hlen, List.take_length, e4, UInt32.ofNat_toNat]

theorem ltvDecode_wire (id : UInt32) (data : Bytes) (h : data.length < 2 ^ 32 - 8) :
    ltvDecode (ltvWire id data) = .ok (UInt32.ofNat data.length, id, data) := by
  have hlen := ltvWire_length id data
  have e1 : (ltvWire id data).take 4 = le32 data.length := by
    unfold ltvWire; rw [List.append_assoc]; exact take_append_len (le32_length _)
  have e2 : (ltvWire id data).drop 4 = le32 id.toNat ++ data := by
    unfold ltvWire; rw [List.append_assoc]; exact drop_append_len (le32_length _)
  have e3 : ((ltvWire id data).drop 4).take 4 = le32 id.toNat := by
    rw [e2]; exact take_append_len (le32_length _)
  have e4 : (ltvWire id data).drop 8 = data := by
    unfold ltvWire; exact drop_append_len (by simp [le32_length])
  have hl : (UInt32.ofNat data.length).toNat = data.length := by
    rw [UInt32.toNat_ofNat', Nat.mod_eq_of_lt (by omega)]
  have hhi : ((8 : UInt32) + UInt32.ofNat data.length).toNat = data.length + 8 := by
    rw [UInt32.toNat_add, hl]
    have : (8 : UInt32).toNat = 8 := rfl
    rw [this]; omega
  unfold ltvDecode
  rw [if_neg (by omega), e1, e3, getUint32_le32 _ (UInt32.toNat_lt id), getUint32_le32 _ (by omega)]
  simp only [hhi]
  rw [if_neg (by omega), ← hlen, List.take_length, e4, UInt32.ofNat_toNat]

/-- What the router is given for a message sent as `(id, data)` in TLV. -/
def tlvMsg (id : UInt32) (data : Bytes) : Message × Option Resp :=
  ({ id := id, dataLen := UInt32.ofNat data.length, data := data, rawData := tlvWire id data },
    some (.tlv id (UInt32.ofNat data.length) data))

def ltvMsg (id : UInt32) (data : Bytes) : Message × Option Resp :=
  ({ id := id, dataLen := UInt32.ofNat data.length, data := data, rawData := ltvWire id data },
    some (.ltv (UInt32.ofNat data.length) id data))

theorem intercept_tlvWire (id : UInt32) (data : Bytes) (h : data.length < 2 ^ 32 - 8) (n : UInt32) :
    intercept .tlv (newMessage n (tlvWire id data)) = .ok (tlvMsg id data) := by
  have hlen := tlvWire_length id data
  have hd : (newMessage n (tlvWire id data)).data = tlvWire id data := rfl
  unfold intercept
  simp only
  rw [if_neg (by rw [hd]; omega), hd, tlvDecode_wire id data h]
  rfl

theorem intercept_ltvWire (id : UInt32) (data : Bytes) (h : data.length < 2 ^ 32 - 8) (n : UInt32) :
    intercept .ltv (newMessage n (ltvWire id data)) = .ok (ltvMsg id data) := by
  have hlen := ltvWire_length id data
  have hd : (newMessage n (ltvWire id data)).data = ltvWire id data := rfl
  unfold intercept
  simp only
  rw [if_neg (by rw [hd]; omega), hd, ltvDecode_wire id data h]
  rfl

/-! ## HTLV -/

theorem crcTrailer_length (s : Bytes) : (crcTrailer s).length = 2 := rfl

theorem htlvWire_length (h f : UInt8) (body : Bytes) : (htlvWire h f body).length = body.length + 5 := by
  simp [htlvWire, crcTrailer_length]

theorem checkCRC_trailer (s : Bytes) : checkCRC s (crcTrailer s) = true := by
  unfold checkCRC
  rw [getCrC_eq]
  simp [crcTrailer, isComplete]

theorem checkCRC_eq {s c : Bytes} (h : checkCRC s c = true) : c = crcTrailer s := by
  unfold checkCRC at h
  rw [getCrC_eq] at h
  unfold crcTrailer at *
  unfold isComplete at h
  split at h
  · rename_i s0 s1 d0 d1 h1 
    simp only [Bool.and_eq_true, beq_iff_eq] at h
    rw [h1, h.1, h.2]
  · cases h

theorem htlvDecode_wire (h f : UInt8) (body : Bytes) :
    htlvDecode (htlvWire h f body) =
      .ok (some (.htlv (htlvWire h f body) h f (UInt8.ofNat body.length) body
        (crcTrailer (h :: f :: UInt8.ofNat body.length :: body)))) := by
  have hlen := htlvWire_length h f body
  have e0 : htlvWire h f body = h :: f :: UInt8.ofNat body.length ::
      (body ++ crcTrailer (h :: f :: UInt8.ofNat body.length :: body)) := by simp [htlvWire]
  have e1 : (htlvWire h f body).take ((htlvWire h f body).length - 2) = h :: f :: UInt8.ofNat body.length :: body := by
    unfold htlvWire
    exact take_append_len (by simp [crcTrailer_length])
  have e2 : (htlvWire h f body).drop ((htlvWire h f body).length - 2) = crcTrailer (h :: f :: UInt8.ofNat body.length :: body) := by
    unfold htlvWire
    exact drop_append_len (by simp [crcTrailer_length])
  unfold htlvDecode
  split
  · rename_i a b c rest heq
    rw [e0] at heq
    simp only [List.cons.injEq] at heq
    obtain ⟨rfl, rfl, rfl, rfl⟩ := heq
    rw [if_neg (by simp [crcTrailer_length]), e1, e2]
    simp only [checkCRC_trailer]
    simp
  · rename_i hne
    exact absurd e0 (hne _ _ _ _)

def htlvMsg (h f : UInt8) (body : Bytes) : Message × Option Resp :=
  ({ id := f.toUInt32, dataLen := UInt32.ofNat (body.length + 5), data := htlvWire h f body, rawData := htlvWire h f body },
    some (.htlv (htlvWire h f body) h f (UInt8.ofNat body.length) body (crcTrailer (h :: f :: UInt8.ofNat body.length :: body))))

theorem intercept_htlvWire (h f : UInt8) (body : Bytes) :
    intercept .htlv (newMessage (UInt32.ofNat (htlvWire h f body).length) (htlvWire h f body)) = .ok (htlvMsg h f body) := by
  have hlen := htlvWire_length h f body
  generalize hn : UInt32.ofNat (htlvWire h f body).length = n
  have hd : (newMessage n (htlvWire h f body)).data = htlvWire h f body := rfl
  unfold intercept
  simp only
  rw [if_neg (by rw [hd]; omega), hd, htlvDecode_wire]
  simp [htlvMsg, newMessage, Message.setMsgID, ← hn, hlen]

end Zinx.Decoder
