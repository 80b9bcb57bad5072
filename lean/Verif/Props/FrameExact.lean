import Verif.Props.FrameMem
import Verif.Props.Wire

/-!
# C04, C78: for which formats over-long frames do no harm
-/

namespace Zinx.Props

open Zinx Zinx.Spec Zinx.Frame

/-- The longest frame a length field of the format can announce. -/
def longest (f : FrameFormat) : Int := (256 ^ f.width : Nat) - 1 + f.adjust + (f.offset + f.width : Nat)

theorem uintValue_ff (o : Order) (n : Nat) : uintValue o (List.replicate n 255) + 1 = 256 ^ n := by
  cases o with
  | big =>
    induction n with
    | zero => rfl
    | succ n ih =>
      simp only [uintValue] at ih ⊢
      simp only [List.replicate_succ, beValue, List.length_replicate, Nat.pow_succ]
      have : (255 : UInt8).toNat = 255 := rfl
      rw [this]; omega
  | little =>
    induction n with
    | zero => rfl
    | succ n ih =>
      simp only [uintValue] at ih ⊢
      simp only [List.replicate_succ, leValue, Nat.pow_succ]
      have : (255 : UInt8).toNat = 255 := rfl
      rw [this]; omega

theorem ff_announces {f : FrameFormat} (hf : f.Safe) (m : Nat) (hm : f.offset + f.width ≤ m) :
    f.HasHeader (List.replicate m 255) ∧ 0 ≤ f.fieldValue (List.replicate m 255) ∧ f.announced (List.replicate m 255) = longest f := by
  have hfield : f.field (List.replicate m 255) = List.replicate f.width 255 := by
    simp only [FrameFormat.field, List.drop_replicate, List.take_replicate]
    congr 1; omega
  have hval : f.fieldValue (List.replicate m 255) = (256 ^ f.width : Nat) - 1 := by
    have h8 : f.width ≠ 8 := by rcases hf.width with h | h | h | h <;> omega
    rw [fieldValue_small h8, hfield]
    have := uintValue_ff f.order f.width
    omega
  refine ⟨by simp [FrameFormat.HasHeader]; exact hm, (fieldValue_nonneg_small hf.width _).1, ?_⟩
  unfold FrameFormat.announced longest
  rw [hval]

/-- **C78, the exact condition.** For the formats of the library (for which the decoder always returns, C06): whatever arrives, less than one frame of the maximum length, or an unfinished header, is kept,
exactly if no length field can announce a frame longer than the maximum. -/
theorem C78_exact (f : FrameFormat) (hv : f.Valid) (hf : f.Safe) (lf : LengthField) (hc : Configures lf f) :
    (∀ reads fs d', decodeReads (newFrameDecoder lf) reads = .ret fs d' → d'.inBuf.length < f.offset + f.width ∨ d'.inBuf.length < f.max) ↔
      longest f ≤ f.max := by
  constructor
  · intro h
    by_cases hl : longest f ≤ f.max
    · exact hl
    exfalso
    have hpow : (256 ^ f.width : Nat) ≤ 2 ^ 32 := by rcases hf.width with h | h | h | h <;> rw [h] <;> decide
    have hb := hf.base_fits
    have hfit := hv.fits
    have hN : ((longest f).toNat : Int) = longest f := Int.toNat_of_nonneg (by omega)
    have hlt : (longest f).toNat < 2 ^ 63 := by
      have e : longest f = (256 ^ f.width : Nat) - 1 + f.adjust + (f.offset + f.width : Nat) := rfl
      omega
    obtain ⟨h1, h2, h3⟩ := ff_announces hf (max (longest f).toNat (f.offset + f.width)) (Nat.le_max_right _ _)
    have := C04_refuted_wedged_forever f hv lf hc (List.replicate (max (longest f).toNat (f.offset + f.width)) 255) (longest f).toNat
      ⟨h1, h2, by rw [h3, hN], hlt, by omega⟩ (by rw [List.length_replicate]; exact Nat.le_max_left _ _) [] (by simp; omega)
    have := h _ _ _ this
    simp at this
    omega
  · intro hl reads fs d' hD
    obtain ⟨gs, t, hs⟩ := spells_all hf (by unfold longest at hl; omega) reads.flatten
    obtain ⟨fs', d'', h1, h2, -⟩ := C78_partial f hv lf hc reads gs t hs reads.length
    rw [List.take_length, hD] at h1
    cases h1
    exact h2

/-- TLV meets the condition, HTLV does not. -/
example : longest tlvFormat ≤ tlvFormat.max ∧ ¬ longest htlvFormat ≤ htlvFormat.max := by decide

/-- **C04, the exact condition.** For a format for which the decoder always returns and which has a frame at all: every over-long frame that is received completely is dropped, and the frames behind it are
delivered, exactly if there is no such frame, because the length field cannot announce it. -/
theorem C04_exact (f : FrameFormat) (hv : f.Valid) (hf : f.Safe) (lf : LengthField) (hc : Configures lf f) (hmax : f.max < 2 ^ 61) (fr : Bytes) (hfr : f.IsFrame fr) :
    (∀ x, f.Overlong x x.length → ∀ frames : List Bytes, (∀ fr ∈ frames, f.IsFrame fr) → ∀ reads : List Bytes, reads.flatten = x ++ frames.flatten →
        ∃ d', decodeReads (newFrameDecoder lf) reads = .ret (frames.map (·.drop f.strip)) d') ↔
      longest f ≤ f.max := by
  have hpow : (256 ^ f.width : Nat) ≤ 2 ^ 32 := by rcases hf.width with h | h | h | h <;> rw [h] <;> decide
  constructor
  · intro h
    by_cases hl : longest f ≤ f.max
    · exact hl
    exfalso
    have hb := hf.base_fits
    have hfit := hv.fits
    have hN : ((longest f).toNat : Int) = longest f := Int.toNat_of_nonneg (by omega)
    have hlt : (longest f).toNat < 2 ^ 62 + 2 ^ 32 := by
      have e : longest f = (256 ^ f.width : Nat) - 1 + f.adjust + (f.offset + f.width : Nat) := rfl
      omega
    have hle : f.offset + f.width ≤ (longest f).toNat := by
      have h1 := hfr.header
      have h2 := hfr.le_max
      unfold FrameFormat.HasHeader at h1
      omega
    obtain ⟨h1, h2, h3⟩ := ff_announces hf (longest f).toNat hle
    have hx : f.Overlong (List.replicate (longest f).toNat 255) (longest f).toNat := ⟨h1, h2, by rw [h3, hN], by omega, by omega⟩
    have hw := C04_refuted_wedged_forever f hv lf hc _ _ hx (by simp) [fr] (by
      have := hfr.le_max
      simp; omega)
    obtain ⟨d', hd⟩ := h (List.replicate (longest f).toNat 255) (by simpa using hx) [fr] (by simpa using hfr) [List.replicate (longest f).toNat 255, fr] (by simp)
    rw [hd] at hw
    injection hw with hw
    exact absurd hw (by simp)
  · intro hl x hx
    exfalso
    have h1 := hx.length
    have h2 := hx.gt_max
    have h8 : f.width ≠ 8 := by rcases hf.width with h | h | h | h <;> omega
    unfold FrameFormat.announced at h1
    rw [fieldValue_small h8] at h1
    have h3 := uintValue_lt f.order (f.field x)
    have h4 : (f.field x).length ≤ f.width := by simp [FrameFormat.field]; omega
    have h5 := Nat.pow_le_pow_right (show 0 < 256 by decide) h4
    unfold longest at hl
    omega

/-- A format with one byte of length and frames of up to four bytes can announce an over-long frame, and has the frame `1 7`. -/
example : smallFormat.IsFrame [1, 7] ∧ ¬ longest smallFormat ≤ smallFormat.max :=
  ⟨⟨by decide, by decide, by decide, by decide, by decide, by decide⟩, by decide⟩

end Zinx.Props
