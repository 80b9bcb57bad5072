import Verif.Model.Device
import Verif.Props.Wire
import Verif.Lemmas.CrcDetect

/-!
# C128: the device server of the decoder example
-/

namespace Zinx.Props

open Zinx Zinx.Spec Zinx.Frame Zinx.Pack Zinx.Decoder Zinx.Crc Zinx.Device

/-! ## The receive loop with a chain of decoders -/

theorem deliverVia_append (ks : List Kind) (a b : List Bytes) :
    deliverVia ks (a ++ b) = match deliverVia ks a with
      | (ms, some p) => (ms, some p)
      | (ms, none) => (ms ++ (deliverVia ks b).1, (deliverVia ks b).2) := by
  induction a with
  | nil => simp [deliverVia]
  | cons fr a ih =>
    simp only [List.cons_append, deliverVia]
    cases through ks (newMessage (UInt32.ofNat fr.length) fr, none) with
    | error p => rfl
    | ok m =>
      simp only [ih]
      rcases deliverVia ks a with ⟨ms, _ | p⟩ <;> simp

theorem receiveVia_eq (ks : List Kind) (reads : List Bytes) : ∀ (d : FrameDecoder) (fs : List Bytes) (d' : FrameDecoder),
    decodeReads d reads = .ret fs d' → receiveVia ks d reads = (deliverVia ks fs).1 := by
  induction reads with
  | nil =>
    intro d fs d' h
    simp only [decodeReads, Outcome.ret.injEq] at h
    obtain ⟨rfl, rfl⟩ := h
    rfl
  | cons r rs ih =>
    intro d fs d' h
    simp only [decodeReads] at h
    cases hD : Decode d r with
    | panic p => rw [hD] at h; cases h
    | hang => rw [hD] at h; cases h
    | ret fs1 d1 =>
      rw [hD] at h
      simp only at h
      cases hR : decodeReads d1 rs with
      | panic p => rw [hR] at h; cases h
      | hang => rw [hR] at h; cases h
      | ret fs2 d2 =>
        rw [hR] at h
        simp only [Outcome.ret.injEq] at h
        obtain ⟨rfl, rfl⟩ := h
        have := ih d1 fs2 d2 hR
        rw [deliverVia_append]
        simp only [receiveVia, hD, this]
        rcases deliverVia ks fs1 with ⟨ms, _ | p⟩ <;> rfl

theorem receiveVia_frames {k : Kind} (ks : List Kind) {α : Type} (msgs : List α) (wire : α → Bytes) (out : α → Message × Option Resp)
    (hw : ∀ m ∈ msgs, (kindFormat k).IsFrame (wire m))
    (ho : ∀ m ∈ msgs, through ks (newMessage (UInt32.ofNat (wire m).length) (wire m), none) = .ok (out m))
    (rest : Bytes) (hr : (kindFormat k).Incomplete rest) (reads : List Bytes)
    (hreads : reads.flatten = (msgs.map wire).flatten ++ rest) :
    receiveVia ks (newFrameDecoder (lengthField k)) reads = msgs.map out := by
  have hs : (kindFormat k).strip = 0 := by cases k <;> rfl
  have hsp : (kindFormat k).Spells ((msgs.map wire).flatten ++ rest) (msgs.map wire) rest := by
    have := spells_frames (f := kindFormat k) (msgs.map wire)
      (by intro fr hfr; obtain ⟨m, hm, rfl⟩ := List.mem_map.1 hfr; exact hw m hm) rest hr
    rw [hs] at this
    simpa only [List.drop_zero, List.map_map, Function.comp_def] using this
  have hD := (C01_chunking_independent (kindFormat k) (kindFormat_valid k) (lengthField k) (kindConfigures k) _ _ _ hsp reads
    hreads).1
  rw [receiveVia_eq ks reads _ _ _ hD]
  have hdel : ∀ l : List α, (∀ m ∈ l, through ks (newMessage (UInt32.ofNat (wire m).length) (wire m), none) = .ok (out m)) →
      deliverVia ks (l.map wire) = (l.map out, none) := by
    intro l
    induction l with
    | nil => intro _; rfl
    | cons m l ih =>
      intro h
      simp only [List.map_cons, deliverVia, h m (by simp), ih (fun x hx => h x (by simp [hx]))]
  rw [hdel msgs ho]

/-- The HTLV decoder on a message whose data is a correct frame. -/
theorem intercept_htlv_data (m : Message) (h f : UInt8) (body : Bytes) (hm : m.data = htlvWire h f body) :
    intercept .htlv m = .ok (m.setMsgID f.toUInt32, (htlvMsg h f body).2) := by
  have hlen := htlvWire_length h f body
  unfold intercept
  simp only
  rw [if_neg (by rw [hm]; omega), hm, htlvDecode_wire]
  rfl

/-! ## The replies -/

/-- The body of the reply that the protocol of the example asks for, by function code: the number of the device or of the card comes back, the rest is fixed. Codes without a router get none. -/
def answerBody (f : UInt8) (body : Bytes) : Option Bytes :=
  if f = 0x10 then some (body.take 7 ++ [10, 11, 12, 13, 14, 15, 16, 17, 18, 2, 20, 21, 22, 23, 24, 25, 26, 27, 1, 29, 30, 31, 32])
  else if f = 0x13 then some (body.take 4 ++ [1, 8, 9, 10, 11, 12, 13, 14, 15, 16])
  else if f = 0x14 ∨ f = 0x16 then some body
  else none

/-- The frames for which the answer is the right one: code 0x15 excluded, and the body has room for the number. -/
def Answerable (f : UInt8) (body : Bytes) : Prop :=
  (f = 0x10 → 7 ≤ body.length) ∧ (f = 0x13 → 4 ≤ body.length) ∧ f ≠ 0x15

instance (f : UInt8) (body : Bytes) : Decidable (Answerable f body) := inferInstanceAs (Decidable (_ ∧ _ ∧ _))

theorem bodyTo_wire {h f : UInt8} {body : Bytes} {k : Nat} (hk : k ≤ body.length + 2) :
    bodyTo (htlvWire h f body) k = .ok ((body ++ crcTrailer (h :: f :: UInt8.ofNat body.length :: body)).take k) := by
  have hlen := htlvWire_length h f body
  unfold bodyTo
  rw [if_pos (by omega)]
  rfl

theorem bodyTo_wire_short {h f : UInt8} {body : Bytes} {k : Nat} (hk : body.length + 2 < k) :
    bodyTo (htlvWire h f body) k = .error .sliceBounds := by
  have hlen := htlvWire_length h f body
  unfold bodyTo
  rw [if_neg (by omega)]

theorem take_trailer {body : Bytes} {t : Bytes} {k : Nat} (hk : k ≤ body.length) : (body ++ t).take k = body.take k := by
  rw [List.take_append_of_le_length hk]

theorem withCrc_wire (f n : UInt8) (b : Bytes) (hn : n = UInt8.ofNat b.length) : withCrc (0xA1 :: f :: n :: b) = htlvWire 0xA1 f b := by
  rw [withCrc, getCrC_eq, htlvWire, hn]

theorem pack14_wire (h f : UInt8) (body : Bytes) : pack14 (htlvWire h f body) = htlvWire 0xA1 f body := by
  have e : ((htlvWire h f body).take ((htlvWire h f body).length - 2)).drop 1 = f :: UInt8.ofNat body.length :: body := by
    rw [htlvWire_length]
    unfold htlvWire
    rw [List.take_append_of_le_length (by simp)]
    rw [List.take_of_length_le (by simp)]
    rfl
  rw [pack14, e, withCrc_wire _ _ _ rfl]

theorem toU32_eq (f : UInt8) (n : UInt8) : (f.toUInt32 = n.toUInt32) = (f = n) := by
  apply propext
  constructor
  · intro h
    have := congrArg UInt32.toNat h
    simp only [UInt8.toNat_toUInt32] at this
    exact UInt8.toNat_inj.1 this
  · rintro rfl; rfl

/-- The reply of the routers to a request with a correct frame, by cases. -/
theorem reply_eq (h f : UInt8) (body : Bytes) (m : Message) (hm : m.id = f.toUInt32) :
    reply (m, (htlvMsg h f body).2) =
      if f = 0x10 then (pack10 (htlvWire h f body) f).toOption
      else if f = 0x13 then (pack13 (htlvWire h f body) f).toOption
      else if f = 0x14 then some (htlvWire 0xA1 f body)
      else if f = 0x15 then (pack15 (htlvWire h f body) f).toOption
      else if f = 0x16 then some (htlvWire 0xA1 f body)
      else none := by
  have e10 := toU32_eq f 0x10
  have e13 := toU32_eq f 0x13
  have e14 := toU32_eq f 0x14
  have e15 := toU32_eq f 0x15
  have e16 := toU32_eq f 0x16
  simp only [reply, htlvMsg, hm, pack14_wire]
  simp only [show ((0x10 : UInt8).toUInt32) = 0x10 from rfl, show ((0x13 : UInt8).toUInt32) = 0x13 from rfl, show ((0x14 : UInt8).toUInt32) = 0x14 from rfl,
    show ((0x15 : UInt8).toUInt32) = 0x15 from rfl, show ((0x16 : UInt8).toUInt32) = 0x16 from rfl] at e10 e13 e14 e15 e16
  simp only [e10, e13, e14, e15, e16]

theorem reply_answer (h f : UInt8) (body : Bytes) (m : Message) (hm : m.id = f.toUInt32) (ha : Answerable f body) :
    reply (m, (htlvMsg h f body).2) = (answerBody f body).map (htlvWire 0xA1 f) := by
  rw [reply_eq h f body m hm]
  obtain ⟨h10, h13, h15⟩ := ha
  unfold answerBody
  by_cases c10 : f = 0x10
  · have := h10 c10
    simp only [if_pos c10, pack10, bodyTo_wire (h := h) (f := f) (body := body) (k := 7) (by omega), take_trailer this, Except.toOption, Option.map_some]
    congr 1
    rw [← withCrc_wire f 0x1E _ (by simp only [List.length_append, List.length_take, Nat.min_eq_left this, List.length_cons, List.length_nil]; rfl)]
    simp only [List.cons_append, List.nil_append, List.append_assoc]
  · simp only [if_neg c10]
    by_cases c13 : f = 0x13
    · have := h13 c13
      simp only [if_pos c13, pack13, bodyTo_wire (h := h) (f := f) (body := body) (k := 4) (by omega), take_trailer this, Except.toOption, Option.map_some]
      congr 1
      rw [← withCrc_wire f 0x0E _ (by simp only [List.length_append, List.length_take, Nat.min_eq_left this, List.length_cons, List.length_nil]; rfl)]
      simp only [List.cons_append, List.nil_append, List.append_assoc]
    · simp only [if_neg c13]
      by_cases c14 : f = 0x14
      · simp [c14]
      · simp only [if_neg c14, if_neg h15]
        by_cases c16 : f = 0x16
        · simp [c16]
        · simp [c14, c16]

theorem biliHtlv_frames (frames : List (UInt8 × UInt8 × Bytes)) (hf : ∀ x ∈ frames, x.2.2.length ≤ 254)
    (next : UInt8 × UInt8 × Bytes) (hn : next.2.2.length ≤ 254) (p q : Bytes) (hp : htlvWire next.1 next.2.1 next.2.2 = p ++ q) (hq : q ≠ []) (reads : List Bytes)
    (hr : reads.flatten = (frames.map fun x => htlvWire x.1 x.2.1 x.2.2).flatten ++ p) :
    biliHtlv reads = frames.filterMap (fun x => reply (htlvMsg x.1 x.2.1 x.2.2)) := by
  have := receiveVia_frames (k := .htlv) [.htlv] frames (fun x => htlvWire x.1 x.2.1 x.2.2) (fun x => htlvMsg x.1 x.2.1 x.2.2)
    (fun x h => htlvWire_isFrame _ _ _ (hf x h)) (fun x _ => by simp only [through, intercept_htlvWire]; rfl)
    p (prefix_incomplete (q := q) (by rw [← hp]; exact htlvWire_isFrame _ _ _ hn) hq) reads hr
  rw [biliHtlv, this, List.filterMap_map]
  rfl

theorem answer_le (f : UInt8) (body b : Bytes) (hb : body.length ≤ 254) (h : answerBody f body = some b) : b.length ≤ 254 := by
  unfold answerBody at h
  split at h
  · cases h; simp; omega
  · split at h
    · cases h; simp; omega
    · split at h
      · cases h; exact hb
      · cases h

/-- **C128, partial.** With the decoder set as the routers expect, any frames, cut in any way and possibly followed by the beginning of a further one, are answered in their order: code 0x10 with 7 and code
0x13 with 4 bytes of the body repeated, codes 0x14 and 0x16 with the whole body, other codes not at all; and a device that reads the answers with the HTLV decoder, however they are cut, finds exactly these
frames. Missing: code 0x15 and bodies that are too short for the number, for which it is false; and the server as it stands, which has another decoder. -/
theorem C128_partial (frames : List (UInt8 × UInt8 × Bytes)) (hf : ∀ x ∈ frames, x.2.2.length ≤ 254) (ha : ∀ x ∈ frames, Answerable x.2.1 x.2.2)
    (next : UInt8 × UInt8 × Bytes) (hn : next.2.2.length ≤ 254) (p q : Bytes) (hp : htlvWire next.1 next.2.1 next.2.2 = p ++ q) (hq : q ≠ []) (reads : List Bytes)
    (hr : reads.flatten = (frames.map fun x => htlvWire x.1 x.2.1 x.2.2).flatten ++ p) :
    biliHtlv reads = frames.filterMap (fun x => (answerBody x.2.1 x.2.2).map (htlvWire 0xA1 x.2.1)) ∧
    ∀ reads', reads'.flatten = (biliHtlv reads).flatten →
      (receiveNew .htlv reads').1.map (fun m => (m.1.id, m.1.data)) =
        frames.filterMap (fun x => (answerBody x.2.1 x.2.2).map fun b => (x.2.1.toUInt32, htlvWire 0xA1 x.2.1 b)) := by
  have e : biliHtlv reads = frames.filterMap (fun x => (answerBody x.2.1 x.2.2).map (htlvWire 0xA1 x.2.1)) := by
    rw [biliHtlv_frames frames hf next hn p q hp hq reads hr]
    clear hr
    induction frames with
    | nil => rfl
    | cons x l ih =>
      have e1 : reply (htlvMsg x.1 x.2.1 x.2.2) = (answerBody x.2.1 x.2.2).map (htlvWire 0xA1 x.2.1) :=
        reply_answer x.1 x.2.1 x.2.2 (htlvMsg x.1 x.2.1 x.2.2).1 rfl (ha x (by simp))
      simp only [List.filterMap_cons, e1, ih (fun y hy => hf y (by simp [hy])) (fun y hy => ha y (by simp [hy]))]
  refine ⟨e, ?_⟩
  intro reads' hr'
  rw [e] at hr'
  let out : List (UInt8 × UInt8 × Bytes) := frames.filterMap (fun x => (answerBody x.2.1 x.2.2).map fun b => (0xA1, x.2.1, b))
  have ho : ∀ x ∈ out, x.2.2.length ≤ 254 := by
    intro x hx
    obtain ⟨y, hy, hxy⟩ := List.mem_filterMap.1 hx
    cases hb : answerBody y.2.1 y.2.2 with
    | none => rw [hb] at hxy; cases hxy
    | some b =>
      rw [hb] at hxy
      simp only [Option.map_some, Option.some.injEq] at hxy
      subst hxy
      exact answer_le _ _ _ (hf y hy) hb
  have hw : reads'.flatten = (out.map fun x => htlvWire x.1 x.2.1 x.2.2).flatten ++ [] := by
    rw [hr', List.append_nil]
    simp only [out, List.map_filterMap, Option.map_map, Function.comp_def]
  rw [(C13_partial out ho (0xA1, 0, []) (by decide) [] (htlvWire 0xA1 0 []) rfl (by decide +kernel) reads' hw).1]
  simp only [out, List.map_filterMap, Option.map_map, Function.comp_def]

/-- The sample frame of examples/zinx_decoder/client/client.go:65, with the checksum that belongs to it. -/
def sampleBody : Bytes := [0x68, 0x65, 0x74, 0, 0, 4, 0xd3, 0, 0, 0, 0, 0, 0, 0, 0, 0, 0, 0, 0, 0, 0, 0, 0, 0]

example : htlvWire 0xa2 0x10 sampleBody = [0xa2, 0x10, 0x18] ++ sampleBody ++ [0xe7, 0xa2] := by decide +kernel

example : (biliHtlv [htlvWire 0xa2 0x10 sampleBody, htlvWire 0xa2 0x13 sampleBody ++ [0xa2]]).length = 2 := by
  rw [(C128_partial [(0xa2, 0x10, sampleBody), (0xa2, 0x13, sampleBody)] (by decide) (by decide +kernel) (0xa2, 0x10, []) (by decide) [0xa2] ([0x10, 0] ++ crcTrailer [0xa2, 0x10, 0])
    (by decide +kernel) (by decide +kernel) _ (by decide +kernel)).1]
  decide +kernel

/-! ## Which replies are frames -/

/-- A frame of the protocol, of the lengths that decoders accept. -/
def ProtocolFrame (r : Bytes) : Prop := ∃ h f b, b.length ≤ 254 ∧ r = htlvWire h f b

theorem biliHtlv_one (h f : UInt8) (body : Bytes) (hb : body.length ≤ 254) :
    biliHtlv [htlvWire h f body] = (reply (htlvMsg h f body)).toList := by
  rw [biliHtlv_frames [(h, f, body)] (by simpa using hb) (0, 0, []) (by simp) [] (htlvWire 0 0 []) rfl (by decide +kernel) _ (by simp)]
  simp only [List.filterMap_cons, List.filterMap_nil]
  cases reply (htlvMsg h f body) <;> rfl

/-- What code 0x15 answers with: 35 bytes of body under the length 38. -/
theorem reply_15 (h : UInt8) (body : Bytes) (hl : 5 ≤ body.length) :
    ∃ b : Bytes, b.length = 35 ∧ reply (htlvMsg h 0x15 body) = some (withCrc (0xA1 :: 0x15 :: 0x26 :: b)) := by
  refine ⟨(body ++ crcTrailer (h :: 0x15 :: UInt8.ofNat body.length :: body)).take 7 ++ [0xA8, 0x01, 0x01, 0x01, 0x01, 0x1A, 0x27, 0x01, 0x00, 0x00, 0x00, 0x01, 0x01, 0x30, 23, 24, 25, 26, 27, 28, 0x00,
      30, 31, 32, 33, 0x30, 0x00, 0x00], ?_, ?_⟩
  · rw [List.length_append, List.length_take, List.length_append, crcTrailer_length, Nat.min_eq_left (by omega)]
    rfl
  · have := reply_eq h 0x15 body (htlvMsg h 0x15 body).1 rfl
    simp only [show ((0x15 : UInt8) = 0x10) = False from by decide, show ((0x15 : UInt8) = 0x13) = False from by decide, show ((0x15 : UInt8) = 0x14) = False from by decide, if_false, if_true] at this
    rw [show htlvMsg h 0x15 body = ((htlvMsg h 0x15 body).1, (htlvMsg h 0x15 body).2) from rfl, this]
    simp only [pack15, bodyTo_wire (h := h) (f := 0x15) (body := body) (k := 7) (by omega), Except.toOption]
    simp

theorem protocolFrame_15 (b : Bytes) (hb : b.length = 35) : ¬ ProtocolFrame (withCrc (0xA1 :: 0x15 :: 0x26 :: b)) := by
  rintro ⟨h, f, c, hc, e⟩
  have h1 := congrArg List.length e
  rw [htlvWire_length, withCrc, getCrC_eq, List.length_append, crcTrailer_length] at h1
  simp only [List.length_cons, hb] at h1
  have h2 := congrArg (fun l => l[2]?) e
  simp only [withCrc, htlvWire, List.cons_append, List.getElem?_cons_succ, List.getElem?_cons_zero, Option.some.injEq] at h2
  rw [show c.length = 35 by omega] at h2
  exact absurd h2 (by decide)

/-- **C128, the exact condition.** With the decoder set as the routers expect, a correct frame is answered with one frame that is correct itself exactly if its code is 0x10 and its body has at least 5 bytes,
or its code is 0x13 and its body has at least 2 bytes, or its code is 0x14 or 0x16. -/
theorem C128_exact (h f : UInt8) (body : Bytes) (hb : body.length ≤ 254) :
    (∃ r, biliHtlv [htlvWire h f body] = [r] ∧ ProtocolFrame r) ↔
      (f = 0x10 ∧ 5 ≤ body.length) ∨ (f = 0x13 ∧ 2 ≤ body.length) ∨ f = 0x14 ∨ f = 0x16 := by
  rw [biliHtlv_one h f body hb]
  have e := reply_eq h f body (htlvMsg h f body).1 rfl
  rw [show ((htlvMsg h f body).1, (htlvMsg h f body).2) = htlvMsg h f body from rfl] at e
  by_cases c10 : f = 0x10
  · subst c10
    simp only [if_true] at e
    simp only [true_and, show ((0x10 : UInt8) = 0x13) = False from by decide, show ((0x10 : UInt8) = 0x14) = False from by decide, show ((0x10 : UInt8) = 0x16) = False from by decide, false_and,
      or_false]
    by_cases hl : 5 ≤ body.length
    · simp only [pack10, bodyTo_wire (h := h) (f := 0x10) (body := body) (k := 7) (by omega), Except.toOption] at e
      refine ⟨fun _ => hl, fun _ => ⟨_, by rw [e]; rfl, ?_⟩⟩
      simp only [List.cons_append, List.nil_append, List.append_assoc]
      refine ⟨0xA1, 0x10, _, ?_, withCrc_wire 0x10 0x1E _ ?_⟩
      · simp [List.length_take, crcTrailer_length]; omega
      · simp only [List.length_append, List.length_take, crcTrailer_length, Nat.min_eq_left (show 7 ≤ body.length + 2 by omega), List.length_cons, List.length_nil]
        rfl
    · simp only [pack10, bodyTo_wire_short (h := h) (f := 0x10) (body := body) (k := 7) (by omega), Except.toOption] at e
      rw [e]
      exact ⟨fun ⟨r, h1, _⟩ => (by cases h1), fun h1 => absurd h1 hl⟩
  · simp only [if_neg c10] at e
    by_cases c13 : f = 0x13
    · subst c13
      simp only [if_true] at e
      simp only [true_and, show ((0x13 : UInt8) = 0x10) = False from by decide, show ((0x13 : UInt8) = 0x14) = False from by decide, show ((0x13 : UInt8) = 0x16) = False from by decide, false_and,
        or_false, false_or]
      by_cases hl : 2 ≤ body.length
      · simp only [pack13, bodyTo_wire (h := h) (f := 0x13) (body := body) (k := 4) (by omega), Except.toOption] at e
        refine ⟨fun _ => hl, fun _ => ⟨_, by rw [e]; rfl, ?_⟩⟩
        simp only [List.cons_append, List.nil_append, List.append_assoc]
        refine ⟨0xA1, 0x13, _, ?_, withCrc_wire 0x13 0x0E _ ?_⟩
        · simp [List.length_take, crcTrailer_length]; omega
        · simp only [List.length_append, List.length_take, crcTrailer_length, Nat.min_eq_left (show 4 ≤ body.length + 2 by omega), List.length_cons, List.length_nil]
          rfl
      · simp only [pack13, bodyTo_wire_short (h := h) (f := 0x13) (body := body) (k := 4) (by omega), Except.toOption] at e
        rw [e]
        exact ⟨fun ⟨r, h1, _⟩ => (by cases h1), fun h1 => absurd h1 hl⟩
    · simp only [if_neg c13] at e
      simp only [c10, c13, false_and, false_or]
      by_cases c14 : f = 0x14
      · rw [if_pos c14] at e
        exact ⟨fun _ => .inl c14, fun _ => ⟨_, by rw [e]; rfl, ⟨0xA1, f, body, hb, rfl⟩⟩⟩
      · rw [if_neg c14] at e
        by_cases c15 : f = 0x15
        · subst c15
          refine ⟨?_, fun h1 => absurd h1 (by decide)⟩
          rintro ⟨r, h1, h2⟩
          exfalso
          by_cases hl : 5 ≤ body.length
          · obtain ⟨b, hb35, hr⟩ := reply_15 h body hl
            rw [hr] at h1
            simp only [Option.toList, List.cons.injEq, and_true] at h1
            exact protocolFrame_15 b hb35 (h1 ▸ h2)
          · simp only [if_true, pack15, bodyTo_wire_short (h := h) (f := 0x15) (body := body) (k := 7) (by omega), Except.toOption] at e
            rw [e] at h1
            cases h1
        · rw [if_neg c15] at e
          by_cases c16 : f = 0x16
          · rw [if_pos c16] at e
            exact ⟨fun _ => .inr c16, fun _ => ⟨_, by rw [e]; rfl, ⟨0xA1, f, body, hb, rfl⟩⟩⟩
          · rw [if_neg c16] at e
            rw [e]
            exact ⟨fun ⟨r, h1, _⟩ => (by cases h1), fun h1 => (by exact absurd h1 (fun h1 => h1.elim c14 c16))⟩

example : ∃ r, biliHtlv [htlvWire 0xa2 0x14 sampleBody] = [r] ∧ ProtocolFrame r :=
  (C128_exact 0xa2 0x14 sampleBody (by decide)).2 (by decide)

/-! ## Code 0x15 -/

theorem withCrc_length (b : Bytes) : (withCrc b).length = b.length + 2 := by rw [withCrc, getCrC_eq, List.length_append, crcTrailer_length]

theorem crc_withCrc (b : Bytes) : crcModbus (withCrc b) = 0#16 := by
  have h := checkCRC_trailer b
  rw [withCrc, getCrC_eq]
  exact (checkCRC_iff b _ _).1 h

/-- After a correct checksum the register is zero, so whether three more bytes close another correct frame does not depend on what came before. -/
theorem crc_three (b : Bytes) (x y z : UInt8) : crcModbus (withCrc b ++ [x, y, z]) = crcByte (crcByte (crcByte 0#16 x) y) z := by
  have h := crc_withCrc b
  unfold crcModbus at h ⊢
  rw [List.foldl_append, h]
  rfl

theorem three_bytes : ∀ f ∈ ([0x10, 0x13, 0x14, 0x15, 0x16] : List UInt8), ∀ z : Fin 256, crcByte (crcByte (crcByte 0#16 0xA1) f) (UInt8.ofNat z.val) ≠ 0#16 := by decide +kernel

theorem receive_panicked_append {k : Kind} : ∀ (reads more : List Bytes) (d : FrameDecoder) (ms : List (Message × Option Resp)) (p : Panic),
    receive k d reads = (ms, .panicked p) → receive k d (reads ++ more) = (ms, .panicked p) := by
  intro reads more
  induction reads with
  | nil => intro d ms p h; simp [receive] at h
  | cons r rs ih =>
    intro d ms p h
    simp only [List.cons_append, receive] at h ⊢
    cases hD : Decode d r with
    | panic q => rw [hD] at h; simpa using h
    | hang => rw [hD] at h; simp at h
    | ret fs d' =>
      rw [hD] at h
      simp only at h ⊢
      rcases hdel : deliver k fs with ⟨ms1, _ | q⟩
      · rw [hdel] at h
        simp only at h ⊢
        rcases hR : receive k d' rs with ⟨ms2, st⟩
        rw [hR] at h
        simp only [Prod.mk.injEq] at h
        obtain ⟨rfl, rfl⟩ := h
        rw [ih d' ms2 p hR]
      · rw [hdel] at h
        simpa using h

theorem starts_15 (b t : Bytes) : htlvFormat.Starts (0xA1 :: 0x15 :: 0x26 :: b ++ t) 43 := by
  refine ⟨?_, ?_, ?_, by decide, by decide, by decide⟩
  · unfold FrameFormat.HasHeader; simp [htlvFormat]
  · have : htlvFormat.field (0xA1 :: 0x15 :: 0x26 :: b ++ t) = [0x26] := by simp [FrameFormat.field, htlvFormat]
    rw [fieldValue_small (by decide), this]; decide
  · have : htlvFormat.field (0xA1 :: 0x15 :: 0x26 :: b ++ t) = [0x26] := by simp [FrameFormat.field, htlvFormat]
    unfold FrameFormat.announced
    rw [fieldValue_small (by decide), this]; decide

/-- **C128 is false for code 0x15.** Every correct frame with this code and a body of at least 5 bytes gets a reply, but a device that reads with the HTLV decoder finds no frame in it; and as soon as the
first three bytes of any further reply have come, its reader takes them for the end of the first one, fails, and hears nothing more, whatever comes then. -/
theorem C128_refuted_15 (h : UInt8) (body : Bytes) (hl : 5 ≤ body.length) (hb : body.length ≤ 254) :
    ∃ r, biliHtlv [htlvWire h 0x15 body] = [r] ∧
      (∀ reads, reads.flatten = r → (receiveNew .htlv reads).1 = []) ∧
      ∀ f ∈ ([0x10, 0x13, 0x14, 0x15, 0x16] : List UInt8), ∀ (z : UInt8) (reads more : List Bytes), reads.flatten = r ++ [0xA1, f, z] →
        receiveNew .htlv (reads ++ more) = ([], .panicked .nilDeref) := by
  obtain ⟨b, hb35, hr⟩ := reply_15 h body hl
  refine ⟨_, by rw [biliHtlv_one h 0x15 body hb, hr]; rfl, ?_, ?_⟩
  · intro reads hreads
    have hi : (kindFormat .htlv).Incomplete (withCrc (0xA1 :: 0x15 :: 0x26 :: b)) := by
      refine .inr ⟨43, starts_15 b _, ?_⟩
      rw [withCrc_length]
      simp [hb35]
    rw [receive_frames (k := .htlv) ([] : List Unit) (fun _ => []) (fun _ => htlvMsg 0 0 []) (by simp) (by simp) _ hi reads (by simpa using hreads)]
    rfl
  · intro f hf z reads more hreads
    apply receive_panicked_append
    have hlen : (withCrc (0xA1 :: 0x15 :: 0x26 :: b) ++ [0xA1, f, z]).length = 43 := by
      rw [List.length_append, withCrc_length]; simp [hb35]
    have hst : htlvFormat.Starts (withCrc (0xA1 :: 0x15 :: 0x26 :: b) ++ [0xA1, f, z]) 43 := by
      have := starts_15 b (getCrC (0xA1 :: 0x15 :: 0x26 :: b) ++ [0xA1, f, z])
      rwa [← List.append_assoc] at this
    generalize hw : withCrc (0xA1 :: 0x15 :: 0x26 :: b) ++ [0xA1, f, z] = w at *
    have hsp : (kindFormat .htlv).Spells w [w] [] := by
      have := FrameFormat.Spells.frame (f := htlvFormat) (s := w) (n := 43) (fs := []) (t := []) hst (by omega) (by
        rw [List.drop_of_length_le (by omega)]
        exact .wait (.inl (by decide)))
      rwa [List.take_of_length_le (by omega)] at this
    have hD := (C01_chunking_independent (kindFormat .htlv) (kindFormat_valid .htlv) (lengthField .htlv) (kindConfigures .htlv) _ _ _ hsp reads hreads).1
    obtain ⟨st, h1, h2, _⟩ := receive_eq .htlv reads _ _ _ hD
    have hbad : intercept .htlv (newMessage (UInt32.ofNat w.length) w) = .error .nilDeref := by
      have hc : checkCRC (w.take (w.length - 2)) (w.drop (w.length - 2)) = false := by
        have e : w = (withCrc (0xA1 :: 0x15 :: 0x26 :: b) ++ [0xA1]) ++ [f, z] := by rw [← hw]; simp
        have el : w.length - 2 = (withCrc (0xA1 :: 0x15 :: 0x26 :: b) ++ [0xA1]).length := by
          rw [hlen, List.length_append, withCrc_length]; simp [hb35]
        rw [el]
        conv => lhs; rw [e]
        rw [List.take_left, List.drop_left]
        cases hcc : checkCRC (withCrc (0xA1 :: 0x15 :: 0x26 :: b) ++ [0xA1]) [f, z] with
        | false => rfl
        | true =>
          exfalso
          have := (checkCRC_iff _ _ _).1 hcc
          rw [List.append_assoc] at this
          rw [show ([0xA1] ++ [f, z] : Bytes) = [0xA1, f, z] from rfl, crc_three] at this
          have h3 := three_bytes f hf ⟨z.toNat, z.toNat_lt⟩
          simp only [UInt8.ofNat_toNat] at h3
          exact h3 this
      have hd : (newMessage (UInt32.ofNat w.length) w).data = w := rfl
      obtain ⟨x, y, u, v, hx⟩ : ∃ x y u v, w = x :: y :: u :: v := ⟨_, _, _, _, by rw [← hw]; rfl⟩
      have hdec : htlvDecode w = .ok none := by
        have hv : 2 ≤ v.length := by rw [hx] at hlen; simp at hlen; omega
        unfold htlvDecode
        rw [hx] at hc ⊢
        simp only [hc]
        rw [if_neg (by omega)]
        rfl
      unfold intercept
      simp only
      rw [if_neg (by rw [hd]; omega), hd, hdec]
    have hdel : deliver .htlv [w] = ([], some .nilDeref) := by simp [deliver, hbad]
    rw [hdel] at h1 h2
    rw [h1, h2 _ rfl]

example : ∃ r, biliHtlv [htlvWire 0xa2 0x15 sampleBody] = [r] ∧ (receiveNew .htlv [r]).1 = [] := by
  obtain ⟨r, h1, h2, _⟩ := C128_refuted_15 0xa2 sampleBody (by decide) (by decide)
  exact ⟨r, h1, h2 [r] (by simp)⟩

/-! ## Short bodies -/

/-- **C128 is false for short bodies.** A correct frame with code 0x10 and a body of 5 or 6 bytes is answered with a frame that gives the checksum of the request as part of the number of the device; with a
body of fewer than 5 bytes it is not answered. -/
theorem C128_refuted_short (h : UInt8) (body : Bytes) (hb : body.length < 7) :
    (5 ≤ body.length → biliHtlv [htlvWire h 0x10 body] = [htlvWire 0xA1 0x10 ((body ++ crcTrailer (h :: 0x10 :: UInt8.ofNat body.length :: body)).take 7 ++
      [10, 11, 12, 13, 14, 15, 16, 17, 18, 2, 20, 21, 22, 23, 24, 25, 26, 27, 1, 29, 30, 31, 32])]) ∧
    (body.length < 5 → biliHtlv [htlvWire h 0x10 body] = []) := by
  have e := reply_eq h 0x10 body (htlvMsg h 0x10 body).1 rfl
  rw [show ((htlvMsg h 0x10 body).1, (htlvMsg h 0x10 body).2) = htlvMsg h 0x10 body from rfl] at e
  simp only [if_true] at e
  rw [biliHtlv_one h 0x10 body (by omega), e]
  constructor
  · intro hl
    simp only [pack10, bodyTo_wire (h := h) (f := 0x10) (body := body) (k := 7) (by omega), Except.toOption, Option.toList]
    congr 1
    rw [← withCrc_wire 0x10 0x1E _ (by
      simp only [List.length_append, List.length_take, crcTrailer_length, Nat.min_eq_left (show 7 ≤ body.length + 2 by omega), List.length_cons, List.length_nil]; rfl)]
    simp only [List.cons_append, List.nil_append, List.append_assoc]
  · intro hl
    simp only [pack10, bodyTo_wire_short (h := h) (f := 0x10) (body := body) (k := 7) (by omega), Except.toOption, Option.toList]

example : biliHtlv [htlvWire 0xa2 0x10 [1, 2, 3, 4]] = [] := (C128_refuted_short 0xa2 [1, 2, 3, 4] (by decide)).2 (by decide)

/-! ## The server as it stands -/

/-- As long as fewer bytes have come than the second word of the stream says, the server as it stands sends nothing. -/
theorem bili_silent (a b : Bytes) (n : Nat) (ha : a.length = 4) (hn : n < 2 ^ 32) (hb : b.length < n) (reads : List Bytes)
    (hr : reads.flatten = a ++ be32 n ++ b) : bili reads = [] := by
  have hf : tlvFormat.field (a ++ be32 n ++ b) = be32 n := by
    simp only [FrameFormat.field, tlvFormat, List.append_assoc]
    rw [show (a ++ (be32 n ++ b)).drop 4 = be32 n ++ b by rw [← ha, List.drop_left]]
    rfl
  have hv : tlvFormat.fieldValue (a ++ be32 n ++ b) = n := by
    rw [fieldValue_small (by decide), hf]
    simp [tlvFormat, uintValue, beValue_be32 _ hn]
  have h4 : (be32 n).length = 4 := rfl
  have hi : (kindFormat .tlv).Incomplete (a ++ be32 n ++ b) := by
    refine .inr ⟨8 + n, ⟨?_, ?_, ?_, by omega, ?_, by simp [kindFormat, tlvFormat]⟩, ?_⟩
    · show tlvFormat.offset + tlvFormat.width ≤ _
      simp only [List.length_append, ha, h4, tlvFormat]; omega
    · show 0 ≤ tlvFormat.fieldValue _
      rw [hv]; omega
    · show tlvFormat.announced _ = _
      unfold FrameFormat.announced
      rw [hv]; simp only [tlvFormat]; omega
    · simp only [kindFormat, tlvFormat]; omega
    · simp only [List.length_append, ha, h4]; omega
  rw [bili, receiveVia_frames (k := .tlv) [.tlv, .htlv] ([] : List Unit) (fun _ => []) (fun _ => htlvMsg 0 0 []) (by simp) (by simp) _ hi reads (by simpa using hr)]
  rfl

/-- **C128 is false for the server as it stands.** It never set the HTLV decoder, only added it behind the TLV one, so it takes bytes 4 to 7 of what the device sends for a length. The frame that the example
client sends is not answered, nor anything after it, until 1.7 GB have come; with the decoder set it is. -/
theorem C128_refuted :
    (∀ (rest : Bytes) (reads : List Bytes), reads.flatten = htlvWire 0xa2 0x10 sampleBody ++ rest → rest.length < 1702100992 - 21 → bili reads = []) ∧
    biliHtlv [htlvWire 0xa2 0x10 sampleBody] ≠ [] := by
  constructor
  · intro rest reads hr hl
    refine bili_silent [0xa2, 0x10, 0x18, 0x68] ([4, 0xd3, 0, 0, 0, 0, 0, 0, 0, 0, 0, 0, 0, 0, 0, 0, 0, 0, 0, 0xe7, 0xa2] ++ rest) 1702100992 rfl (by decide) ?_ reads ?_
    · rw [List.length_append]; simp only [List.length_cons, List.length_nil]; omega
    · have e : htlvWire 0xa2 0x10 sampleBody = [0xa2, 0x10, 0x18, 0x68] ++ be32 1702100992 ++ [4, 0xd3, 0, 0, 0, 0, 0, 0, 0, 0, 0, 0, 0, 0, 0, 0, 0, 0, 0, 0xe7, 0xa2] := by decide +kernel
      rw [hr, e, List.append_assoc]
  · rw [biliHtlv_one 0xa2 0x10 sampleBody (by decide)]
    decide +kernel

/-- The exact counterpart: what the server as it stands does answer are HTLV frames inside TLV frames, and it answers them, whatever the tags, as the server with the HTLV decoder answers the frames. -/
theorem C128_wrapped (frames : List (UInt32 × UInt8 × UInt8 × Bytes)) (hf : ∀ x ∈ frames, x.2.2.2.length ≤ 254) (reads reads' : List Bytes)
    (hr : reads.flatten = (frames.map fun x => tlvWire x.1 (htlvWire x.2.1 x.2.2.1 x.2.2.2)).flatten)
    (hr' : reads'.flatten = (frames.map fun x => htlvWire x.2.1 x.2.2.1 x.2.2.2).flatten) : bili reads = biliHtlv reads' := by
  have h1 : biliHtlv reads' = (frames.map (·.2)).filterMap (fun x => reply (htlvMsg x.1 x.2.1 x.2.2)) :=
    biliHtlv_frames (frames.map (·.2)) (by
      intro x hx
      obtain ⟨y, hy, rfl⟩ := List.mem_map.1 hx
      exact hf y hy) (0, 0, []) (by simp) [] (htlvWire 0 0 []) rfl (by decide +kernel) reads' (by simpa [Function.comp_def] using hr')
  have h2 := receiveVia_frames (k := .tlv) [.tlv, .htlv] frames (fun x => tlvWire x.1 (htlvWire x.2.1 x.2.2.1 x.2.2.2))
    (fun x => ((tlvMsg x.1 (htlvWire x.2.1 x.2.2.1 x.2.2.2)).1.setMsgID x.2.2.1.toUInt32, (htlvMsg x.2.1 x.2.2.1 x.2.2.2).2))
    (fun x h => tlvWire_isFrame _ _ (by have := hf x h; rw [htlvWire_length]; omega))
    (fun x h => by
      simp only [through]
      rw [intercept_tlvWire _ _ (by have := hf x h; rw [htlvWire_length]; omega)]
      simp only
      rw [intercept_htlv_data _ x.2.1 x.2.2.1 x.2.2.2 rfl]
      rfl)
    [] (.inl (by decide)) reads (by simpa using hr)
  rw [bili, h2, h1, List.filterMap_map, List.filterMap_map]
  congr 1

example : bili [tlvWire 7 (htlvWire 0xa2 0x10 sampleBody)] ≠ [] := by
  rw [C128_wrapped [(7, 0xa2, 0x10, sampleBody)] (by decide) _ [htlvWire 0xa2 0x10 sampleBody] (by simp) (by simp)]
  exact C128_refuted.2

end Zinx.Props
