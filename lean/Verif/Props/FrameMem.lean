import Verif.Props.Frame

/-!
# C78: how much undecoded input the frame decoder keeps
-/

namespace Zinx.Props

open Zinx Zinx.Spec Zinx.Frame

/-- The full claim C78: for every documented format, whatever arrives, after every read the bytes kept for later are less than a
frame of the maximum length (or an unfinished header). -/
def KeepsLittle : Prop :=
  ∀ (f : FrameFormat) (lf : LengthField), f.Valid → f.Safe → Configures lf f →
    ∀ (reads : List Bytes) fs d', decodeReads (newFrameDecoder lf) reads = .ret fs d' →
      d'.inBuf.length < f.offset + f.width ∨ d'.inBuf.length < f.max

theorem incomplete_short {f : FrameFormat} {s : Bytes} (h : f.Incomplete s) :
    s.length < f.offset + f.width ∨ s.length < f.max := by
  rcases h with h | ⟨n, hs, h⟩
  · exact .inl h
  · exact .inr (by have := hs.le_max; omega)

/-- **C78, partial.** As long as the peer announces no over-long frame, after every read less than one maximum frame is kept.
Missing: streams with an over-long frame (false, see below). -/
theorem C78_partial (f : FrameFormat) (hv : f.Valid) (lf : LengthField) (hc : Configures lf f) (reads : List Bytes)
    (fs : List Bytes) (t : Bytes) (hs : f.Spells reads.flatten fs t) (k : Nat) :
    ∃ fs' d', decodeReads (newFrameDecoder lf) (reads.take k) = .ret fs' d' ∧
      (d'.inBuf.length < f.offset + f.width ∨ d'.inBuf.length < f.max) ∧
      ∃ gone, (reads.take k).flatten = gone ++ d'.inBuf := by
  obtain ⟨fs', d', h1, h2, h3⟩ := C07_no_complete_frame_withheld f hv lf hc reads fs t hs k
  refine ⟨fs', d', h1, incomplete_short h3, ?_⟩
  generalize (reads.take k).flatten = s at h2
  generalize d'.inBuf = t at h2
  clear h1 h3 hs hc hv
  induction h2 with
  | wait _ => exact ⟨[], rfl⟩
  | @frame s n _ _ _ _ _ ih =>
    obtain ⟨g, hg⟩ := ih
    exact ⟨s.take n ++ g, by rw [List.append_assoc, ← hg, List.take_append_drop]⟩

example : ∃ fs' d', decodeReads (newFrameDecoder exLengthField) ([[0xAA, 0], [1, 7, 8], [9, 0xAB, 0, 0, 1, 2, 0xAC], [0]].take 2)
      = .ret fs' d' ∧ (d'.inBuf.length < 3 ∨ d'.inBuf.length < 64) ∧
      ∃ gone, ([[0xAA, 0], [1, 7, 8], [9, 0xAB, 0, 0, 1, 2, 0xAC], [0]].take 2).flatten = gone ++ d'.inBuf :=
  C78_partial exFormat exFormat_valid exLengthField exConfigures
    [[0xAA, 0], [1, 7, 8], [9, 0xAB, 0, 0, 1, 2, 0xAC], [0]] _ _ exSpells 2

/-- **C78 for the shipped TLV and LTV protocols**, whatever the peer sends: after any reads less than one frame of the largest
length, four gigabytes and seven bytes, is kept. -/
theorem C78_tlv_ltv (k : Decoder.Kind) (hk : k ≠ .htlv) (reads : List Bytes) :
    ∃ fs d', decodeReads (newFrameDecoder (Decoder.lengthField k)) reads = .ret fs d' ∧ d'.inBuf.length < 2 ^ 32 + 7 ∧
      ∃ gone, reads.flatten = gone ++ d'.inBuf := by
  obtain ⟨fs, t, hs⟩ : ∃ fs t, (kindFormat k).Spells reads.flatten fs t :=
    spells_all (kindFormat_safe k) (by cases k <;> simp [kindFormat, tlvFormat, ltvFormat] at hk ⊢) _
  obtain ⟨fs', d', h1, h2, h3⟩ := C78_partial _ (kindFormat_valid k) _ (kindConfigures k) reads fs t hs reads.length
  rw [List.take_length] at h1 h3
  refine ⟨fs', d', h1, ?_, h3⟩
  cases k <;> simp [kindFormat, tlvFormat, ltvFormat] at h2 hk ⊢ <;> omega

example : ∃ fs d', decodeReads (newFrameDecoder (Decoder.lengthField .tlv)) [[0, 0, 0, 1, 255], [255, 255, 255, 7]] = .ret fs d' ∧
    d'.inBuf.length < 2 ^ 32 + 7 ∧ ∃ gone, [[0, 0, 0, 1, 255], [255, 255, 255, 7]].flatten = gone ++ d'.inBuf :=
  C78_tlv_ltv .tlv (by simp) _

/-- a frame of the HTLV protocol announcing the longest body its one byte length can announce: 260 bytes in all, one more than the
decoder's maximum of 259 -/
def htlvLongest : Bytes := 0xA2 :: 0x10 :: 0xFF :: List.replicate 257 0

theorem htlvLongest_overlong : htlvFormat.Overlong htlvLongest 260 :=
  ⟨by decide +kernel, by decide +kernel, by decide +kernel, by decide, by decide⟩

theorem htlvLongest_length : htlvLongest.length = 260 := by simp only [htlvLongest, List.length_cons, List.length_replicate]

/-- **C78 is false for the shipped HTLV protocol.** One frame with length byte 255 is enough: from then on nothing is ever removed
from the buffer, so the peer can make the decoder keep any number of bytes, sent in reads as small as one byte. -/
theorem C78_htlv_refuted (N : Nat) (hN : N < 2 ^ 62) :
    ∃ reads d', (∀ r ∈ reads, r.length ≤ 260) ∧
      decodeReads (newFrameDecoder (Decoder.lengthField .htlv)) reads = .ret [] d' ∧ N ≤ d'.inBuf.length := by
  refine ⟨htlvLongest :: List.replicate N [0], _, ?_, C04_refuted_wedged_forever htlvFormat (kindFormat_valid .htlv) _
    (kindConfigures .htlv) htlvLongest 260 htlvLongest_overlong (by rw [htlvLongest_length]; omega) (List.replicate N [0]) ?_, ?_⟩
  · intro r hr
    simp only [List.mem_cons, List.mem_replicate] at hr
    rcases hr with rfl | ⟨_, rfl⟩ <;> simp [htlvLongest_length]
  · simp [htlvLongest_length]; omega
  · simp

example : ∃ reads d', (∀ r ∈ reads, r.length ≤ 260) ∧
    decodeReads (newFrameDecoder (Decoder.lengthField .htlv)) reads = .ret [] d' ∧ 1000000000 ≤ d'.inBuf.length :=
  C78_htlv_refuted 1000000000 (by decide)

/-- **C78 is false of the code**, as stated for every format. -/
theorem C78_refuted : ¬ KeepsLittle := by
  intro h
  obtain ⟨reads, d', _, h1, h2⟩ := C78_htlv_refuted 300 (by decide)
  have := h htlvFormat _ (kindFormat_valid .htlv) (kindFormat_safe .htlv) (kindConfigures .htlv) reads _ _ h1
  simp [htlvFormat] at this
  omega

end Zinx.Props
