import Verif.Lemmas.FrameTotal

/-! Over-long frames. -/

namespace Zinx.Spec

/-- The stream starts with the header of a frame longer than the maximum. -/
structure FrameFormat.Overlong (f : FrameFormat) (s : Bytes) (n : Nat) : Prop where
  header : f.HasHeader s
  nonneg : 0 ≤ f.fieldValue s
  length : f.announced s = n
  fits : n < 2 ^ 63
  gt_max : f.max < n

end Zinx.Spec

namespace Zinx.Frame

open Zinx Zinx.Spec

theorem overlong_append {f : FrameFormat} {s : Bytes} {n : Nat} (h : f.Overlong s n) (b : Bytes) : f.Overlong (s ++ b) n := by
  refine ⟨?_, ?_, ?_, h.fits, h.gt_max⟩
  · have := h.header; unfold FrameFormat.HasHeader at *; simp; omega
  · rw [fieldValue_append h.header]; exact h.nonneg
  · have := h.length
    unfold FrameFormat.announced at *
    rwa [fieldValue_append h.header]

theorem decode_overlong {f : FrameFormat} (hv : f.Valid) {d : FrameDecoder} (hm : Matches f d) {n : Nat}
    (hs : f.Overlong d.inBuf n) :
    decode d = (exceededFrameLength d d.inBuf n).map (fun d' => (none, d')) := by
  have hh := hs.header
  have hlen : ¬ ((d.inBuf.length : Int) < d.lengthFieldEndOffset) := by
    rw [hm.endOff]; unfold FrameFormat.HasHeader at hh; omega
  have hu := getUnadjusted_eq hv.width hh
  rw [← hm.off, ← hm.len, ← hm.order] at hu
  have hn : wrap64 (f.fieldValue d.inBuf + wrap64 (d.lengthAdjustment + d.lengthFieldEndOffset)) = n := by
    rw [wrap64_add_wrap64, hm.adj, hm.endOff]
    have h1 := hs.length
    unfold FrameFormat.announced at h1
    have := hs.fits
    rw [wrap64_of_range] <;> omega
  have h6 : ¬ (f.fieldValue d.inBuf < 0) := by have := hs.nonneg; omega
  have h7 : toU64 (n : Int) > d.maxFrameLength := by
    have := hs.fits; have := hs.gt_max
    rw [toU64_of_nonneg (by omega) (by omega), hm.max]; omega
  unfold decode beginDecode
  simp only [hm.normal, bind, Except.bind, Bool.false_eq_true, if_false, hlen, hu, h6, hn, h7, if_true, pure, Except.pure]
  cases exceededFrameLength d d.inBuf n <;> rfl

/-- An over-long frame that is completely buffered leaves the decoder exactly as it was (the bytes are not consumed). -/
theorem exceeded_complete {d : FrameDecoder} (hn : d.discardingTooLongFrame = false)
    (h0 : d.bytesToDiscard = 0) (ht : d.tooLongFrameLength = 0) {n : Nat} (hle : n ≤ d.inBuf.length)
    (hfit : d.inBuf.length < 2 ^ 63) : exceededFrameLength d d.inBuf n = .ok d := by
  have hw : wrap64 ((n : Int) - d.inBuf.length) = (n : Int) - d.inBuf.length := by
    rw [wrap64_of_range] <;> omega
  unfold exceededFrameLength
  simp only [bind, Except.bind, pure, Except.pure, bufNext, hw]
  split
  · rw [if_neg (by omega)]
    unfold failIfNecessary
    simp only [h0, if_true]
    congr 1
    cases d; simp_all
  · have : (n : Int) - d.inBuf.length = 0 := by omega
    unfold failIfNecessary
    simp only [this, if_true]
    congr 1
    cases d; simp_all

theorem decodeLoop_overlong {f : FrameFormat} (hv : f.Valid) {d : FrameDecoder} (hm : Matches f d) {n : Nat}
    (hs : f.Overlong d.inBuf n) (h0 : d.bytesToDiscard = 0) (ht : d.tooLongFrameLength = 0)
    (hle : n ≤ d.inBuf.length) (hfit : d.inBuf.length < 2 ^ 63) (k : Nat) (resp : List Bytes) :
    decodeLoop (k + 1) d resp = .ret resp d := by
  rw [decodeLoop, decode_overlong hv hm hs, exceeded_complete hm.normal h0 ht hle hfit]
  rfl

/-- Good frames before an over-long one are delivered; nothing of the over-long one is, in the same call. -/
theorem decodeLoop_good_then_overlong {f : FrameFormat} (hv : f.Valid) (frs : List Bytes) : ∀ (d : FrameDecoder), Matches f d →
    (∀ fr ∈ frs, f.IsFrame fr) → ∀ x n, f.Overlong x n → d.inBuf = frs.flatten ++ x →
    ∀ k, frs.length < k → ∀ resp, ∃ d', decodeLoop k d resp = .ret (resp ++ frs.map (·.drop f.strip)) d' ∧ d'.inBuf = x := by
  induction frs with
  | nil =>
    intro d hm _ x n hx hb k hk resp
    obtain ⟨k, rfl⟩ : ∃ j, k = j + 1 := ⟨k - 1, by omega⟩
    simp only [List.flatten_nil, List.nil_append] at hb
    have hx' : f.Overlong d.inBuf n := by rw [hb]; exact hx
    rw [decodeLoop, decode_overlong hv hm hx']
    have hd0 : ∃ d', exceededFrameLength d d.inBuf n = .ok d' ∧ d'.inBuf = d.inBuf := by
      unfold exceededFrameLength
      simp only [bind, Except.bind, pure, Except.pure, bufNext]
      split
      · rw [if_neg (by omega)]; exact ⟨_, rfl, failIfNecessary_inBuf _⟩
      · exact ⟨_, rfl, failIfNecessary_inBuf _⟩
    obtain ⟨d', hd', hin⟩ := hd0
    rw [hd']
    exact ⟨d', by simp [Except.map], by rw [hin, hb]⟩
  | cons fr frs ih =>
    intro d hm hf x n hx hb k hk resp
    obtain ⟨k, rfl⟩ : ∃ j, k = j + 1 := ⟨k - 1, by omega⟩
    have hfr := hf fr (by simp)
    have hs : f.Starts d.inBuf fr.length := by
      rw [hb, List.flatten_cons, List.append_assoc]
      exact (starts_append hfr.header _ _).2 hfr
    have hlen : fr.length ≤ d.inBuf.length := by rw [hb]; simp
    have hstrip := hfr.strip
    have hpos := hfr.pos
    have htake : d.inBuf.take fr.length = fr := by rw [hb]; simp
    have hdrop : d.inBuf.drop fr.length = frs.flatten ++ x := by rw [hb]; simp
    rw [decodeLoop, decode_starts hv hm hs, if_neg (by omega), htake]
    have hsz : ((fr.drop f.strip).length : Int) + d.initialBytesToStrip = fr.length := by
      rw [hm.strip]; simp; omega
    simp only [hsz]
    rw [if_pos (by omega), if_neg (by omega)]
    simp only [Int.toNat_natCast, hdrop]
    obtain ⟨d', h1, h2⟩ := ih { d with inBuf := frs.flatten ++ x } (hm.setBuf _)
      (fun y hy => hf y (by simp [hy])) x n hx rfl k (by simp at hk; omega) (resp ++ [fr.drop f.strip])
    exact ⟨d', by rw [h1]; simp, h2⟩

end Zinx.Frame
