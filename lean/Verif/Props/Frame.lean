import Verif.Lemmas.FrameLong
import Verif.Model.Decoder

/-!
# Properties of the frame decoder: C01 .. C07
-/

namespace Zinx.Props

open Zinx Zinx.Spec Zinx.Frame

/-- The length field configuration `lf` asks for the format `f` (a nil byte order means big endian). -/
structure Configures (lf : LengthField) (f : FrameFormat) : Prop where
  max : lf.maxFrameLength = f.max
  off : lf.lengthFieldOffset = f.offset
  len : lf.lengthFieldLength = f.width
  adj : lf.lengthAdjustment = f.adjust
  strip : lf.initialBytesToStrip = f.strip
  order : lf.order = some f.order ∨ (lf.order = none ∧ f.order = .big)

theorem Configures.matches {lf : LengthField} {f : FrameFormat} (h : Configures lf f) (hv : f.Valid) :
    Matches f (newFrameDecoder lf) := by
  refine ⟨h.max, h.off, h.len, h.adj, h.strip, ?_, ?_, rfl⟩
  · rcases h.order with h | ⟨h, h'⟩ <;> simp [newFrameDecoder, h]
    exact h'.symm
  · have := hv.fits
    simp only [newFrameDecoder, h.off, h.len]
    rw [wrap64_of_range] <;> omega

/-- A format used in the examples: two byte big-endian length after one byte of header, two bytes follow the content,
three bytes stripped. -/
def exFormat : FrameFormat := { offset := 1, width := 2, adjust := 2, strip := 3, order := .big, max := 64 }

def exLengthField : LengthField :=
  { maxFrameLength := 64, lengthFieldOffset := 1, lengthFieldLength := 2, lengthAdjustment := 2,
    initialBytesToStrip := 3, order := none }

theorem exFormat_valid : exFormat.Valid := ⟨by simp [exFormat], by simp [exFormat], by simp [exFormat]⟩

theorem exConfigures : Configures exLengthField exFormat := ⟨rfl, rfl, rfl, rfl, rfl, .inr ⟨rfl, rfl⟩⟩

def exFrame1 : Bytes := [0xAA, 0, 1, 7, 8, 9]
def exFrame2 : Bytes := [0xAB, 0, 0, 1, 2]

theorem exFrame1_ok : exFormat.IsFrame exFrame1 :=
  ⟨by decide, by decide, by decide, by decide, by decide, by decide⟩
theorem exFrame2_ok : exFormat.IsFrame exFrame2 :=
  ⟨by decide, by decide, by decide, by decide, by decide, by decide⟩
theorem exTail_incomplete : exFormat.Incomplete [0xAC, 0] := .inl (by decide)

/-- A clean stream of two frames and a partial header. -/
theorem exSpells : exFormat.Spells ([exFrame1, exFrame2].flatten ++ [0xAC, 0]) [[7, 8, 9], [1, 2]] [0xAC, 0] :=
  spells_frames [exFrame1, exFrame2] (by
    intro fr h; simp at h; rcases h with rfl | rfl
    · exact exFrame1_ok
    · exact exFrame2_ok) _ exTail_incomplete

/-! ## C01 -/

/-- **C01.** If a stream consists of acceptable frames and an incomplete rest, then every division of it into reads
delivers exactly those frames and keeps exactly that rest; in particular all divisions agree. -/
theorem C01_chunking_independent (f : FrameFormat) (hv : f.Valid) (lf : LengthField) (hc : Configures lf f)
    (s : Bytes) (fs : List Bytes) (t : Bytes) (hs : f.Spells s fs t) (reads : List Bytes) (hr : reads.flatten = s) :
    decodeReads (newFrameDecoder lf) reads = .ret fs { newFrameDecoder lf with inBuf := t } ∧
    decodeReads (newFrameDecoder lf) reads = decodeReads (newFrameDecoder lf) [s] := by
  have hm := hc.matches hv
  have hi : f.Incomplete (newFrameDecoder lf).inBuf := by
    left
    rcases hv.width with h | h | h | h | h <;> simp [newFrameDecoder, h]
  have h1 := decodeReads_spells hv reads (newFrameDecoder lf) hm hi fs t
    (by rw [hr]; simpa [newFrameDecoder] using hs)
  have h2 := decodeReads_spells hv [s] (newFrameDecoder lf) hm hi fs t
    (by simpa [newFrameDecoder] using hs)
  exact ⟨h1, by rw [h1, h2]⟩

example : decodeReads (newFrameDecoder exLengthField) [[0xAA, 0], [], [1, 7, 8], [9, 0xAB, 0, 0, 1, 2, 0xAC], [0]] =
    .ret [[7, 8, 9], [1, 2]] { newFrameDecoder exLengthField with inBuf := [0xAC, 0] } :=
  (C01_chunking_independent exFormat exFormat_valid exLengthField exConfigures _ _ _ exSpells _ rfl).1

/-- Every stream is clean for a safe format whose maximum is never exceeded. -/
theorem spells_all {f : FrameFormat} (hf : f.Safe)
    (hmax : f.adjust + (f.offset + f.width : Nat) + (256 ^ f.width : Nat) ≤ f.max + 1) (s : Bytes) :
    ∃ fs t, f.Spells s fs t := by
  induction hk : s.length using Nat.strongRecOn generalizing s with
  | ind k ih =>
    by_cases hh : f.HasHeader s
    · have hv := fieldValue_nonneg_small hf.width s
      have hb := hf.base_pos
      have hst := hf.base_strip
      have hlt : f.fieldValue s < (256 ^ f.width : Nat) := by
        have hlen : (f.field s).length = f.width := by
          unfold FrameFormat.HasHeader at hh
          simp [FrameFormat.field]; omega
        have := uintValue_lt f.order (f.field s)
        rw [hlen] at this
        unfold FrameFormat.fieldValue
        simp only
        rw [if_neg (by have := hf.width; omega)]
        exact_mod_cast this
      have hs : f.Starts s (f.announced s).toNat := by
        unfold FrameFormat.announced
        refine ⟨hh, hv.1, ?_, ?_, ?_, ?_⟩
        · unfold FrameFormat.announced; omega
        all_goals omega
      by_cases hle : (f.announced s).toNat ≤ s.length
      · have hp := hs.pos
        obtain ⟨fs, t, h⟩ := ih (s.drop (f.announced s).toNat).length (by simp; omega) _ rfl
        exact ⟨_, _, .frame hs hle h⟩
      · exact ⟨[], s, .wait (.inr ⟨_, hs, by omega⟩)⟩
    · exact ⟨[], s, .wait (.inl (by unfold FrameFormat.HasHeader at hh; omega))⟩

/-- The format of the shipped TLV decoder: four byte big-endian length after a four byte tag, nothing stripped. -/
def tlvFormat : FrameFormat := { offset := 4, width := 4, adjust := 0, strip := 0, order := .big, max := 2 ^ 32 + 7 }
/-- The format of the shipped LTV decoder: four byte little-endian length, then a four byte tag. -/
def ltvFormat : FrameFormat := { offset := 0, width := 4, adjust := 4, strip := 0, order := .little, max := 2 ^ 32 + 7 }
/-- The format of the shipped HTLV decoder: one byte length at offset two, two bytes of CRC after the body. -/
def htlvFormat : FrameFormat := { offset := 2, width := 1, adjust := 2, strip := 0, order := .big, max := 259 }

def kindFormat : Decoder.Kind → FrameFormat
  | .tlv => tlvFormat
  | .ltv => ltvFormat
  | .htlv => htlvFormat

theorem kindFormat_valid (k : Decoder.Kind) : (kindFormat k).Valid := by
  cases k <;> exact ⟨by simp [kindFormat, tlvFormat, ltvFormat, htlvFormat],
    by simp [kindFormat, tlvFormat, ltvFormat, htlvFormat], by simp [kindFormat, tlvFormat, ltvFormat, htlvFormat]⟩

theorem kindFormat_safe (k : Decoder.Kind) : (kindFormat k).Safe := by
  cases k <;> exact ⟨by simp [kindFormat, tlvFormat, ltvFormat, htlvFormat],
    by simp [kindFormat, tlvFormat, ltvFormat, htlvFormat], by simp [kindFormat, tlvFormat, ltvFormat, htlvFormat],
    by simp [kindFormat, tlvFormat, ltvFormat, htlvFormat]⟩

theorem kindConfigures (k : Decoder.Kind) : Configures (Decoder.lengthField k) (kindFormat k) := by
  cases k
  · exact ⟨rfl, rfl, rfl, rfl, rfl, .inr ⟨rfl, rfl⟩⟩
  · exact ⟨rfl, rfl, rfl, rfl, rfl, .inl rfl⟩
  · exact ⟨rfl, rfl, rfl, rfl, rfl, .inr ⟨rfl, rfl⟩⟩

/-- **C01**, for the shipped TLV and LTV decoders no hypothesis on the stream is needed: whatever the peer sends, cutting it
differently never changes what is delivered. -/
theorem C01_chunking_independent_tlv_ltv (k : Decoder.Kind) (hk : k = .tlv ∨ k = .ltv) (reads : List Bytes) :
    decodeReads (newFrameDecoder (Decoder.lengthField k)) reads =
      decodeReads (newFrameDecoder (Decoder.lengthField k)) [reads.flatten] := by
  have hall : ∀ s, ∃ fs t, (kindFormat k).Spells s fs t := by
    rcases hk with rfl | rfl <;>
    exact spells_all (kindFormat_safe _) (by simp [kindFormat, tlvFormat, ltvFormat])
  obtain ⟨fs, t, hs⟩ := hall reads.flatten
  exact (C01_chunking_independent (kindFormat k) (kindFormat_valid k) _ (kindConfigures k) _ fs t hs reads rfl).2

example : decodeReads (newFrameDecoder (Decoder.lengthField .tlv)) [[0, 0, 0, 1, 0], [0, 0, 1, 42, 0, 0]] =
    decodeReads (newFrameDecoder (Decoder.lengthField .tlv)) [[0, 0, 0, 1, 0, 0, 0, 1, 42, 0, 0]] :=
  C01_chunking_independent_tlv_ltv .tlv (.inl rfl) [[0, 0, 0, 1, 0], [0, 0, 1, 42, 0, 0]]

/-! ## C02 -/

/-- **C02.** Acceptable frames followed by an incomplete rest: exactly those frames, in order, stripped, each once; the rest
is kept. -/
theorem C02_frames_delivered (f : FrameFormat) (hv : f.Valid) (lf : LengthField) (hc : Configures lf f)
    (frames : List Bytes) (hf : ∀ fr ∈ frames, f.IsFrame fr) (rest : Bytes) (hr : f.Incomplete rest) :
    Decode (newFrameDecoder lf) (frames.flatten ++ rest) =
      .ret (frames.map (·.drop f.strip)) { newFrameDecoder lf with inBuf := rest } := by
  have hm := hc.matches hv
  exact Decode_spells hv hm (by simpa [newFrameDecoder] using spells_frames frames hf rest hr)

example : Decode (newFrameDecoder exLengthField) ([exFrame1, exFrame2, exFrame1].flatten ++ [0xAC, 0]) =
    .ret [[7, 8, 9], [1, 2], [7, 8, 9]] { newFrameDecoder exLengthField with inBuf := [0xAC, 0] } :=
  C02_frames_delivered exFormat exFormat_valid exLengthField exConfigures [exFrame1, exFrame2, exFrame1]
    (by intro fr h; simp at h; rcases h with rfl | rfl | rfl <;> first | exact exFrame1_ok | exact exFrame2_ok)
    [0xAC, 0] exTail_incomplete

/-! ## C03 -/

/-- **C03.** Widths 1, 2, 3, 4: the unsigned value in the given byte order; width 8: the same as two's complement; every other
width: a panic, also when the buffer is long enough. -/
theorem C03_length_header (s : Bytes) (offset width : Nat) (order : Order) (h : offset + width ≤ s.length) :
    getUnadjustedFrameLength s offset width order =
      if width = 1 ∨ width = 2 ∨ width = 3 ∨ width = 4 then
        .ok (uintValue order ((s.drop offset).take width) : Int)
      else if width = 8 then
        .ok (if uintValue order ((s.drop offset).take 8) < 2 ^ 63 then
            (uintValue order ((s.drop offset).take 8) : Int)
          else (uintValue order ((s.drop offset).take 8) : Int) - 2 ^ 64)
      else .error .unsupportedLength := by
  by_cases hw : width = 1 ∨ width = 2 ∨ width = 3 ∨ width = 4
  · rw [if_pos hw]
    have := getUnadjusted_eq (f := { offset := offset, width := width, adjust := 0, strip := 0, order := order, max := 0 })
      (by simp only; omega) (s := s) h
    simp only at this
    rw [this]
    unfold FrameFormat.fieldValue FrameFormat.field
    simp only
    rw [if_neg (by omega)]
  · rw [if_neg hw]
    by_cases h8 : width = 8
    · subst h8
      have := getUnadjusted_eq (f := { offset := offset, width := 8, adjust := 0, strip := 0, order := order, max := 0 })
        (by simp) (s := s) h
      simp only at this
      rw [this]
      unfold FrameFormat.fieldValue FrameFormat.field
      simp only [true_and, if_true]
      congr 1
      split <;> split <;> omega
    · rw [if_neg h8]
      unfold getUnadjustedFrameLength
      rw [if_neg (by omega)]
      simp only
      rw [if_neg (by omega), if_neg (by omega), if_neg (by omega)]

example : getUnadjustedFrameLength [9, 1, 2, 3, 9] 1 3 .little = .ok (1 + 2 * 256 + 3 * 65536) := by decide
example : getUnadjustedFrameLength [9, 1, 2, 3, 9] 1 3 .big = .ok (3 + 2 * 256 + 1 * 65536) := by decide
example : getUnadjustedFrameLength [255, 255, 255, 255, 255, 255, 255, 254] 0 8 .big = .ok (-2) := by decide
example : getUnadjustedFrameLength [1, 2, 3, 4, 5] 0 5 .big = .error .unsupportedLength := by decide

/-! ## C04 -/

/-- The full claim C04: a completely received over-long frame is dropped and the frames behind it are delivered. -/
def Resynchronises : Prop :=
  ∀ (f : FrameFormat) (lf : LengthField), f.Valid → Configures lf f →
    ∀ (x : Bytes), f.Overlong x x.length → ∀ (frames : List Bytes), (∀ fr ∈ frames, f.IsFrame fr) →
      ∀ (reads : List Bytes), reads.flatten = x ++ frames.flatten →
        ∃ d', decodeReads (newFrameDecoder lf) reads = .ret (frames.map (·.drop f.strip)) d'

theorem wedged_aux {f : FrameFormat} (hv : f.Valid) (reads : List Bytes) : ∀ (d : FrameDecoder), Matches f d →
    d.bytesToDiscard = 0 → d.tooLongFrameLength = 0 → ∀ n, f.Overlong d.inBuf n → n ≤ d.inBuf.length →
    (d.inBuf ++ reads.flatten).length < 2 ^ 63 →
    decodeReads d reads = .ret [] { d with inBuf := d.inBuf ++ reads.flatten } := by
  induction reads with
  | nil => intro d _ _ _ n _ _ _; simp [decodeReads]
  | cons r rs ih =>
    intro d hm h0 ht n ho hle hfit
    have hD : Decode d r = .ret [] { d with inBuf := d.inBuf ++ r } := by
      unfold Decode
      have := decodeLoop_overlong hv (hm.setBuf (d.inBuf ++ r)) (overlong_append ho r) h0 ht
        (by simp; omega) (by simp at hfit ⊢; omega) (2 * (d.inBuf.length + r.length) + 2) []
      exact this
    simp only [decodeReads, hD]
    rw [ih { d with inBuf := d.inBuf ++ r } (hm.setBuf _) h0 ht n (overlong_append ho r) (by simp; omega)
      (by simpa using hfit)]
    simp

/-- **C04 is false of the code (1).** Once a completely buffered over-long frame is at the front, the connection is wedged: for
every later sequence of reads nothing is ever delivered again and every byte is kept in memory. -/
theorem C04_refuted_wedged_forever (f : FrameFormat) (hv : f.Valid) (lf : LengthField) (hc : Configures lf f)
    (x : Bytes) (n : Nat) (hx : f.Overlong x n) (hle : n ≤ x.length) (reads : List Bytes)
    (hfit : (x ++ reads.flatten).length < 2 ^ 63) :
    decodeReads (newFrameDecoder lf) (x :: reads) =
      .ret [] { newFrameDecoder lf with inBuf := x ++ reads.flatten } := by
  have hm := hc.matches hv
  have hD : Decode (newFrameDecoder lf) x = .ret [] { newFrameDecoder lf with inBuf := x } := by
    unfold Decode
    have := decodeLoop_overlong hv (hm.setBuf x) (n := n) hx rfl rfl hle (by simp at hfit ⊢; omega)
      (2 * ((newFrameDecoder lf).inBuf.length + x.length) + 2) []
    simpa [newFrameDecoder] using this
  simp only [decodeReads, hD]
  rw [wedged_aux hv reads _ (hm.setBuf x) rfl rfl n hx hle (by simpa using hfit)]
  simp

/-- one byte length, at most four bytes in total -/
def smallFormat : FrameFormat := { offset := 0, width := 1, adjust := 0, strip := 0, order := .big, max := 4 }
def smallLengthField : LengthField :=
  { maxFrameLength := 4, lengthFieldOffset := 0, lengthFieldLength := 1, lengthAdjustment := 0,
    initialBytesToStrip := 0, order := some .big }

theorem smallFormat_valid : smallFormat.Valid := ⟨by simp [smallFormat], by simp [smallFormat], by simp [smallFormat]⟩
theorem smallConfigures : Configures smallLengthField smallFormat := ⟨rfl, rfl, rfl, rfl, rfl, .inl rfl⟩

example : decodeReads (newFrameDecoder smallLengthField) [[4, 0, 0, 0, 0], [1, 7], [1, 8]] =
    .ret [] { newFrameDecoder smallLengthField with inBuf := [4, 0, 0, 0, 0, 1, 7, 1, 8] } :=
  C04_refuted_wedged_forever smallFormat smallFormat_valid _ smallConfigures [4, 0, 0, 0, 0] 5
    ⟨by decide, by decide, by decide, by decide, by decide⟩ (by decide) [[1, 7], [1, 8]] (by decide)

/-- **C04 is false of the code (2).** The claim in full fails. -/
theorem C04_refuted : ¬ Resynchronises := by
  intro h
  obtain ⟨d', hd⟩ := h smallFormat smallLengthField smallFormat_valid smallConfigures [4, 0, 0, 0, 0]
    ⟨by decide, by decide, by decide, by decide, by decide⟩ [[1, 7]]
    (by intro fr hfr; simp at hfr; subst hfr; exact ⟨by decide, by decide, by decide, by decide, by decide, by decide⟩)
    [[4, 0, 0, 0, 0], [1, 7]] rfl
  rw [C04_refuted_wedged_forever smallFormat smallFormat_valid _ smallConfigures [4, 0, 0, 0, 0] 5
    ⟨by decide, by decide, by decide, by decide, by decide⟩ (by decide) [[1, 7]] (by decide)] at hd
  simp at hd

/-- **C04 is false of the code (3).** When the over-long frame arrives in two reads, bytes from *inside* it are delivered as
if they were frames: here the only thing sent is the over-long frame `8 9 9 9 9 9 9 1 66` and the decoder delivers `1 66`,
a message chosen by whoever chose the payload. -/
theorem C04_refuted_payload_delivered_as_frame :
    smallFormat.Overlong [8, 9, 9, 9, 9, 9, 9, 1, 66] 9 ∧
    ∃ d', decodeReads (newFrameDecoder smallLengthField) [[8, 9], [9, 9, 9, 9, 9, 1, 66]] = .ret [[1, 66]] d' := by
  refine ⟨⟨by decide, by decide, by decide, by decide, by decide⟩, ?_⟩
  exact ⟨_, rfl⟩

/-- **C04, partial.** Proved part: frames in front of an over-long one are delivered, and the call that meets the over-long
frame delivers nothing of it. Missing: resynchronisation (false, see above). -/
theorem C04_partial (f : FrameFormat) (hv : f.Valid) (lf : LengthField) (hc : Configures lf f) (frames : List Bytes)
    (hf : ∀ fr ∈ frames, f.IsFrame fr) (x : Bytes) (n : Nat) (hx : f.Overlong x n) :
    ∃ d', Decode (newFrameDecoder lf) (frames.flatten ++ x) = .ret (frames.map (·.drop f.strip)) d' ∧ d'.inBuf = x := by
  have hm := hc.matches hv
  unfold Decode
  have hlen : frames.length ≤ frames.flatten.length := by
    clear hx
    induction frames with
    | nil => simp
    | cons fr frs ih =>
      have := (hf fr (by simp)).pos
      have := ih (fun y hy => hf y (by simp [hy]))
      rw [List.flatten_cons, List.length_append, List.length_cons]; omega
  have := decodeLoop_good_then_overlong hv frames
    { newFrameDecoder lf with inBuf := (newFrameDecoder lf).inBuf ++ (frames.flatten ++ x) } (hm.setBuf _) hf x n hx
    (by simp [newFrameDecoder]) (2 * ((newFrameDecoder lf).inBuf.length + (frames.flatten ++ x).length) + 3)
    (by rw [List.length_append]; omega) []
  simpa using this

example : ∃ d', Decode (newFrameDecoder smallLengthField) ([[1, 7], [2, 7, 7]].flatten ++ [200, 1, 2]) =
    .ret [[1, 7], [2, 7, 7]] d' ∧ d'.inBuf = [200, 1, 2] :=
  C04_partial smallFormat smallFormat_valid _ smallConfigures [[1, 7], [2, 7, 7]]
    (by intro fr h; simp at h; rcases h with rfl | rfl <;>
        exact ⟨by decide, by decide, by decide, by decide, by decide, by decide⟩)
    [200, 1, 2] 201 ⟨by decide, by decide, by decide, by decide, by decide⟩

/-- **C04, partial (2).** For safe formats, whatever arrives and however it is cut, everything delivered is announced by a header
and within the maximum: an over-long frame is never delivered as such. -/
theorem C04_partial_bounded (f : FrameFormat) (hv : f.Valid) (hf : f.Safe) (lf : LengthField) (hc : Configures lf f)
    (reads : List Bytes) : ∃ fs d', decodeReads (newFrameDecoder lf) reads = .ret fs d' ∧
      ∀ fr ∈ fs, (fr.length + f.strip ≤ f.max ∧ ∃ s, f.announced s = (fr.length + f.strip : Nat) ∧
        fr = (s.take (fr.length + f.strip)).drop f.strip) := by
  have hm := hc.matches hv
  obtain ⟨fs, d', h, _, hcut⟩ := decodeReads_total hf reads _
    ⟨hm.off, hm.len, hm.adj, hm.strip, hm.order, hm.endOff, by simp [newFrameDecoder], hm.max⟩
  refine ⟨fs, d', h, ?_⟩
  intro fr hfr
  obtain ⟨s, n, hs, hle, rfl⟩ := hcut fr hfr
  have h1 := hs.le_max
  have h2 := hs.strip
  have h3 := hs.length
  have h4 : ((s.take n).drop f.strip).length + f.strip = n := by simp; omega
  rw [h4]
  exact ⟨h1, s, h3, rfl⟩

example : ∃ fs d', decodeReads (newFrameDecoder exLengthField) [[1, 2, 255, 0], [255, 0, 3, 1, 2]] = .ret fs d' ∧
    ∀ fr ∈ fs, (fr.length + 3 ≤ 64 ∧ ∃ s, exFormat.announced s = (fr.length + 3 : Nat) ∧
        fr = (s.take (fr.length + 3)).drop 3) :=
  C04_partial_bounded exFormat exFormat_valid ⟨by simp [exFormat], by decide, by decide, by decide⟩ _ exConfigures _

/-! ## C05 -/

/-- **C05.** Whatever bytes arrive in whatever reads, the frame decoder of a shipped protocol returns: no panic, no endless
loop. -/
theorem C05_shipped_never_panics_or_hangs (k : Decoder.Kind) (reads : List Bytes) :
    ∃ fs d', decodeReads (newFrameDecoder (Decoder.lengthField k)) reads = .ret fs d' := by
  have hm := (kindConfigures k).matches (kindFormat_valid k)
  obtain ⟨fs, d', h, _⟩ := decodeReads_total (kindFormat_safe k) reads _
    ⟨hm.off, hm.len, hm.adj, hm.strip, hm.order, hm.endOff, by simp [newFrameDecoder], hm.max⟩
  exact ⟨fs, d', h⟩

example : ∃ fs d', decodeReads (newFrameDecoder (Decoder.lengthField .htlv)) [[1, 2, 255, 0], [255, 255, 255]] = .ret fs d' :=
  C05_shipped_never_panics_or_hangs .htlv _

/-! ## C06 -/

/-- The full claim C06. -/
def NeverPanicsOrHangs : Prop :=
  ∀ (f : FrameFormat) (lf : LengthField), f.Valid → Configures lf f →
    ∀ reads, ∃ fs d', decodeReads (newFrameDecoder lf) reads = .ret fs d'

/-- `width` bytes of big-endian length at the start of the frame, at most 1024 bytes. -/
def bad (width adjust strip : Int) : LengthField :=
  { maxFrameLength := 1024, lengthFieldOffset := 0, lengthFieldLength := width, lengthAdjustment := adjust,
    initialBytesToStrip := strip, order := some .big }

/-- A documented configuration (length counts the whole frame, adjustment minus two): a peer announcing zero makes `Decode` loop
for ever (and the list of results grow without bound). -/
theorem C06_refuted_hang (rest : Bytes) :
    Decode (newFrameDecoder (bad 2 (-2) 0)) (0 :: 0 :: rest) = .hang ∧
    ∀ n, decodeLoop n { newFrameDecoder (bad 2 (-2) 0) with
      inBuf := (newFrameDecoder (bad 2 (-2) 0)).inBuf ++ 0 :: 0 :: rest } [] = .hang := by
  rw [decode_hang_iff, and_self]
  intro n
  apply loop_forever (arr := [])
  · simp only [decode, beginDecode, newFrameDecoder, bad, bind, Except.bind, pure, Except.pure]
    have h1 : wrap64 (0 + 2) = 2 := by decide
    have h2 : ¬ (((0 :: 0 :: rest : Bytes).length : Int) < 2) := by simp; omega
    have h3 : getUnadjustedFrameLength (0 :: 0 :: rest) 0 2 .big = .ok 0 := by
      have := C03_length_header (0 :: 0 :: rest) 0 2 .big (by simp)
      simpa [uintValue, beValue] using this
    have h4 : wrap64 (0 + wrap64 (-2 + 2)) = 0 := by decide
    have h5 : toU64 0 = 0 := by decide
    simp only [List.nil_append, Bool.false_eq_true, if_false, h1, h2, h3, h4, h5]
    simp [bufNext]
    omega
  · simp [newFrameDecoder, bad]

/-- Announcing a length below the adjustment makes the decoder panic. -/
theorem C06_refuted_negative : decodeReads (newFrameDecoder (bad 2 (-10) 0)) [[0, 3]] =
    .panic .sliceBounds := by decide

/-- Announcing a frame shorter than what is stripped makes the decoder panic. -/
theorem C06_refuted_strip : decodeReads (newFrameDecoder (bad 2 (-2) 4)) [[0, 3, 1]] =
    .panic .stripTooLong := by decide

/-- With an eight byte length a peer can announce a negative length and make the decoder panic. -/
theorem C06_refuted_signed : decodeReads (newFrameDecoder (bad 8 (0) 0))
    [[255, 0, 0, 0, 0, 0, 0, 0]] = .panic .negativeLength := by decide

/-- **C06 is false of the code.** -/
theorem C06_refuted : ¬ NeverPanicsOrHangs := by
  intro h
  obtain ⟨fs, d', hd⟩ := h { offset := 0, width := 2, adjust := -10, strip := 0, order := .big, max := 1024 }
    (bad 2 (-10) 0) ⟨by simp, by simp, by simp⟩ ⟨rfl, rfl, rfl, rfl, rfl, .inl rfl⟩ [[0, 3]]
  rw [C06_refuted_negative] at hd
  cases hd

/-- **C06, partial.** For every unsigned length field such that header plus adjustment is at least one byte and covers the
stripped bytes (or exceeds the maximum), the decoder returns on every input after every history, also while discarding. Missing: the other configurations,
for which it is false. -/
theorem C06_partial (f : FrameFormat) (hv : f.Valid) (hf : f.Safe) (lf : LengthField) (hc : Configures lf f)
    (reads : List Bytes) : ∃ fs d', decodeReads (newFrameDecoder lf) reads = .ret fs d' := by
  have hm := hc.matches hv
  obtain ⟨fs, d', h, _⟩ := decodeReads_total hf reads _
    ⟨hm.off, hm.len, hm.adj, hm.strip, hm.order, hm.endOff, by simp [newFrameDecoder], hm.max⟩
  exact ⟨fs, d', h⟩

example : ∃ fs d', decodeReads (newFrameDecoder exLengthField) [[1, 2, 255, 0], [255, 255, 255]] = .ret fs d' :=
  C06_partial exFormat exFormat_valid ⟨by simp [exFormat], by decide, by decide, by decide⟩ _ exConfigures _

/-- The number spelled by zeros. -/
theorem uintValue_zeros (o : Order) (n : Nat) : uintValue o (List.replicate n 0) = 0 := by
  cases o <;> induction n <;> simp_all [uintValue, beValue, leValue, List.replicate_succ]

/-- The number spelled by eight bytes of 255. -/
theorem uintValue_ones (o : Order) : uintValue o (List.replicate 8 255) = 2 ^ 64 - 1 := by cases o <;> decide

/-- A header that announces a negative length field, a frame of no bytes, or a complete acceptable frame shorter than what is stripped,
makes `decode` panic or hand out the same empty frame again and again. -/
theorem bad_decode {f : FrameFormat} (hv : f.Valid) {d : FrameDecoder} (h : Matches f d) (hh : f.HasHeader d.inBuf)
    (hr : -2 ^ 63 ≤ f.announced d.inBuf - d.inBuf.length ∧ f.announced d.inBuf < 2 ^ 63)
    (hb : f.fieldValue d.inBuf < 0 ∨ f.announced d.inBuf ≤ 0 ∨
      f.announced d.inBuf < f.strip ∧ f.announced d.inBuf ≤ f.max ∧ f.announced d.inBuf ≤ d.inBuf.length) :
    (∃ p, decode d = .error p) ∨ decode d = .ok (some [], d) ∧ d.initialBytesToStrip = 0 := by
  have hlen : ¬ ((d.inBuf.length : Int) < d.lengthFieldEndOffset) := by
    unfold FrameFormat.HasHeader at hh; rw [h.endOff]; omega
  have hu : getUnadjustedFrameLength d.inBuf d.lengthFieldOffset d.lengthFieldLength d.order = .ok (f.fieldValue d.inBuf) := by
    rw [h.off, h.len, h.order]; exact getUnadjusted_eq hv.width hh
  have hfl : wrap64 (f.fieldValue d.inBuf + wrap64 (d.lengthAdjustment + d.lengthFieldEndOffset)) = f.announced d.inBuf := by
    unfold FrameFormat.announced at hr ⊢
    rw [wrap64_add_wrap64, h.adj, h.endOff, wrap64_of_range] <;> omega
  have hs := h.strip
  have hm := hv.maxFits
  simp only [decode, beginDecode, h.normal, bind, Except.bind, pure, Except.pure, Bool.false_eq_true, if_false, if_neg hlen, hu]
  by_cases hf : f.fieldValue d.inBuf < 0
  · rw [if_pos hf]; exact .inl ⟨_, rfl⟩
  rw [if_neg hf, hfl]
  by_cases hn : f.announced d.inBuf < 0
  · have hbig : toU64 (f.announced d.inBuf) > d.maxFrameLength := by
      rw [h.max]; unfold toU64; omega
    rw [if_pos hbig]
    simp only [exceededFrameLength, bind, Except.bind, pure, Except.pure, bufNext]
    rw [if_pos (by rw [wrap64_of_range] <;> omega), if_pos hn]
    exact .inl ⟨_, rfl⟩
  rw [toU64_of_nonneg (by omega) (by omega), h.max, if_neg (by omega), if_neg (by omega)]
  by_cases hst : (f.strip : Int) > f.announced d.inBuf
  · rw [if_pos (by omega)]; exact .inl ⟨_, rfl⟩
  · rw [if_neg (by omega)]
    right
    have h0 : f.strip = 0 := by omega
    have ha : f.announced d.inBuf = 0 := by omega
    simp [bufNext, hs, h0, ha]

/-- **C06, exactly.** For every configuration with a supported width (and an adjustment that does not overflow), the decoder returns on
every input after every history if and only if the length is not eight bytes wide (it would be signed), header plus adjustment is at
least one byte, and it covers the stripped bytes (or exceeds the maximum, so that no frame is acceptable). -/
theorem C06_exact_partial (f : FrameFormat) (hv : f.Valid) (lf : LengthField) (hc : Configures lf f)
    (hlo : -2 ^ 62 < f.adjust) (hhi : f.adjust + (f.offset + f.width : Nat) < 2 ^ 62) :
    (∀ reads, ∃ fs d', decodeReads (newFrameDecoder lf) reads = .ret fs d') ↔
      f.width ≠ 8 ∧ 1 ≤ f.adjust + (f.offset + f.width : Nat) ∧
      ((f.strip : Int) ≤ f.adjust + (f.offset + f.width : Nat) ∨ (f.max : Int) < f.adjust + (f.offset + f.width : Nat)) := by
  constructor
  · intro h
    have hm := hc.matches hv
    have hstop : ∀ b : Bytes, f.HasHeader b → (-2 ^ 63 ≤ f.announced b - b.length ∧ f.announced b < 2 ^ 63) →
        ¬ (f.fieldValue b < 0 ∨ f.announced b ≤ 0 ∨ f.announced b < f.strip ∧ f.announced b ≤ f.max ∧ f.announced b ≤ b.length) := by
      intro b hb hr hbad
      obtain ⟨fs, d', hd⟩ := h [b]
      have hD : ∃ fs d', Decode (newFrameDecoder lf) b = .ret fs d' := by
        simp only [decodeReads] at hd
        split at hd
        · exact ⟨_, _, by assumption⟩
        · cases hd
        · cases hd
      obtain ⟨fs, d', hD⟩ := hD
      rcases bad_decode hv (d := { newFrameDecoder lf with inBuf := (newFrameDecoder lf).inBuf ++ b }) (hm.setBuf _) hb hr hbad with ⟨p, hp⟩ | ⟨hp, h0⟩
      · simp only [Decode, decodeLoop, hp] at hD
        cases hD
      · rw [(decode_hang_iff _ _).mpr fun n => loop_forever hp (by rw [h0]; simp) n []] at hD
        cases hD
    have h8 : f.width ≠ 8 := by
      intro h8
      have hfv : f.fieldValue (List.replicate (f.offset + 8) 255) = -1 := by
        simp only [FrameFormat.fieldValue, FrameFormat.field, h8, List.drop_replicate, List.take_replicate]
        rw [show min 8 (f.offset + 8 - f.offset) = 8 by omega, uintValue_ones]
        decide
      refine hstop (List.replicate (f.offset + 8) 255) (by simp [FrameFormat.HasHeader, h8]) ?_ (.inl (by omega))
      simp only [FrameFormat.announced, hfv, List.length_replicate, h8] at hhi ⊢
      omega
    have hfv : ∀ n, f.fieldValue (List.replicate n 0) = 0 := by
      intro n
      simp only [FrameFormat.fieldValue, FrameFormat.field, List.drop_replicate, List.take_replicate, uintValue_zeros]
      simp
    have hb1 : 1 ≤ f.adjust + (f.offset + f.width : Nat) := by
      refine Decidable.byContradiction fun hb => ?_
      refine hstop (List.replicate (f.offset + f.width) 0) (by simp [FrameFormat.HasHeader]) ?_ (.inr (.inl ?_))
      all_goals simp only [FrameFormat.announced, hfv, List.length_replicate]; omega
    refine ⟨h8, hb1, ?_⟩
    refine Decidable.byContradiction fun hb => ?_
    refine hstop (List.replicate (f.offset + f.width + (f.adjust + (f.offset + f.width : Nat)).toNat) 0) (by simp [FrameFormat.HasHeader]) ?_ (.inr (.inr ?_))
    all_goals simp only [FrameFormat.announced, hfv, List.length_replicate]; omega
  · rintro ⟨h8, h1, h2⟩ reads
    exact C06_partial f hv ⟨by have := hv.width; omega, h1, h2, hhi⟩ lf hc reads

/-- The documented two byte length that counts itself (adjustment -2) is not safe; stripping its two bytes does not help. -/
example : ¬ ∀ reads, ∃ fs d', decodeReads (newFrameDecoder (bad 2 (-2) 2)) reads = .ret fs d' := by
  rw [C06_exact_partial { offset := 0, width := 2, adjust := -2, strip := 2, order := .big, max := 1024 } ⟨by simp, by simp, by simp⟩
    (bad 2 (-2) 2) ⟨rfl, rfl, rfl, rfl, rfl, .inl rfl⟩ (by decide) (by decide)]
  decide

/-- Neither is any eight byte length. -/
example : ¬ ∀ reads, ∃ fs d', decodeReads (newFrameDecoder (bad 8 0 8)) reads = .ret fs d' := by
  rw [C06_exact_partial { offset := 0, width := 8, adjust := 0, strip := 8, order := .big, max := 1024 } ⟨by simp, by simp, by simp⟩
    (bad 8 0 8) ⟨rfl, rfl, rfl, rfl, rfl, .inl rfl⟩ (by decide) (by decide)]
  decide

/-! ## C07 -/

/-- **C07.** At every moment (after the first `k` reads of a clean stream) the frames delivered so far are all the complete
frames among the bytes received so far, and what is kept contains no complete frame. -/
theorem C07_no_complete_frame_withheld (f : FrameFormat) (hv : f.Valid) (lf : LengthField) (hc : Configures lf f)
    (reads : List Bytes) (fs : List Bytes) (t : Bytes) (hs : f.Spells reads.flatten fs t) (k : Nat) :
    ∃ fs' d', decodeReads (newFrameDecoder lf) (reads.take k) = .ret fs' d' ∧
      f.Spells (reads.take k).flatten fs' d'.inBuf ∧ f.Incomplete d'.inBuf := by
  have hcat : reads.flatten = (reads.take k).flatten ++ (reads.drop k).flatten := by
    rw [← List.flatten_append, List.take_append_drop]
  rw [hcat] at hs
  obtain ⟨fs1, t1, fs2, h1, _, _⟩ := spells_split _ _ _ _ hs
  exact ⟨fs1, _, (C01_chunking_independent f hv lf hc _ fs1 t1 h1 (reads.take k) rfl).1, h1, spells_rest_incomplete h1⟩

example : ∃ fs' d', decodeReads (newFrameDecoder exLengthField) ([[0xAA, 0], [1, 7, 8, 9], [0xAB, 0, 0, 1, 2, 0xAC, 0]].take 2) =
    .ret fs' d' ∧ exFormat.Spells ([[0xAA, 0], [1, 7, 8, 9], [0xAB, 0, 0, 1, 2, 0xAC, 0]].take 2).flatten fs' d'.inBuf ∧
    exFormat.Incomplete d'.inBuf :=
  C07_no_complete_frame_withheld exFormat exFormat_valid exLengthField exConfigures
    [[0xAA, 0], [1, 7, 8, 9], [0xAB, 0, 0, 1, 2, 0xAC, 0]] [[7, 8, 9], [1, 2]] [0xAC, 0] exSpells 2

end Zinx.Props
