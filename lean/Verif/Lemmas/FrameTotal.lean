import Verif.Lemmas.Frame

/-! Fuel adequacy of `Decode` and totality for safe formats. -/

namespace Zinx.Frame

open Zinx Zinx.Spec

theorem failIfNecessary_inBuf (d : FrameDecoder) : (failIfNecessary d).inBuf = d.inBuf := by
  unfold failIfNecessary; split <;> rfl

theorem failIfNecessary_strip (d : FrameDecoder) :
    (failIfNecessary d).initialBytesToStrip = d.initialBytesToStrip := by
  unfold failIfNecessary; split <;> rfl

theorem getUnadjusted_nil (o l : Int) (ord : Order) : ∃ p, getUnadjustedFrameLength [] o l ord = .error p := by
  unfold getUnadjustedFrameLength
  split
  · exact ⟨_, rfl⟩
  · rename_i h
    simp at h
    simp only
    rw [if_neg (by omega), if_neg (by omega), if_neg (by omega)]
    exact ⟨_, rfl⟩

/-- What a successful extraction of a frame implies, in any state and configuration. -/
theorem decode_some {d d' : FrameDecoder} {arr : Bytes} (h : decode d = .ok (some arr, d')) :
    d'.inBuf = d.inBuf ∧ d'.initialBytesToStrip = d.initialBytesToStrip ∧
    (d.discardingTooLongFrame = false → d' = d) ∧ d'.discardingTooLongFrame = false ∧
    0 ≤ (arr.length : Int) + d'.initialBytesToStrip ∧
    (arr.length : Int) + d'.initialBytesToStrip ≤ d.inBuf.length := by
  unfold decode beginDecode at h
  cases hdisc : d.discardingTooLongFrame with
  | false =>
    simp only [hdisc, bind, Except.bind, Bool.false_eq_true, if_false, pure, Except.pure] at h
    split at h
    · cases h
    · split at h
      · cases h
      · rename_i v hv
        split at h
        · cases h
        · split at h
          · split at h
            · cases h
            · cases h
          · split at h
            · cases h
            · split at h
              · cases h
              · unfold bufNext at h
                split at h
                · cases h
                · rename_i hn
                  split at hn
                  · cases hn
                  · injection hn with hn
                    subst hn
                    injection h with h
                    injection h with h1 h2
                    injection h1 with h1
                    subst h2
                    subst h1
                    refine ⟨rfl, rfl, fun _ => rfl, hdisc, by simp; omega, ?_⟩
                    simp
                    omega
  | true =>
    simp only [hdisc, bind, Except.bind, if_true, pure, Except.pure] at h
    unfold discardingTooLongFrameFunc at h
    simp only [bind, Except.bind, pure, Except.pure, bufNext] at h
    by_cases hneg : min d.bytesToDiscard (d.inBuf.length : Int) < 0
    · simp [hneg] at h
    · simp only [hneg, if_false] at h
      generalize hd1 : failIfNecessary { d with bytesToDiscard := d.bytesToDiscard - min d.bytesToDiscard ↑d.inBuf.length } = d1 at h
      have hin : d1.inBuf = d.inBuf := by rw [← hd1, failIfNecessary_inBuf]
      have hst : d1.initialBytesToStrip = d.initialBytesToStrip := by rw [← hd1, failIfNecessary_strip]
      split at h
      · cases h
      · split at h
        · cases h
        · rename_i hlen v hv
          -- the discard has been completed, otherwise the local buffer would be empty
          have hflag : d1.discardingTooLongFrame = false := by
            by_cases hle : d.bytesToDiscard ≤ d.inBuf.length
            · rw [← hd1]; unfold failIfNecessary
              rw [if_pos]
              simp only
              omega
            · exfalso
              have : min d.bytesToDiscard (d.inBuf.length : Int) = d.inBuf.length := by omega
              rw [this] at hv
              simp only [Int.toNat_natCast, List.drop_length] at hv
              obtain ⟨p, hp⟩ := getUnadjusted_nil d1.lengthFieldOffset d1.lengthFieldLength d1.order
              rw [hp] at hv; cases hv
          split at h
          · cases h
          · split at h
            · split at h
              · cases h
              · cases h
            · split at h
              · cases h
              · split at h
                · cases h
                · split at h
                  · cases h
                  · rename_i hn
                    split at hn
                    · cases hn
                    · injection hn with hn
                      subst hn
                      injection h with h
                      injection h with h1 h2
                      injection h1 with h1
                      subst h2
                      subst h1
                      refine ⟨hin, hst, fun hf => by simp at hf, hflag, by simp; omega, ?_⟩
                      simp
                      simp at *
                      omega

/-- Size that decreases with every iteration, unless the loop repeats the same state for ever. -/
def measure (d : FrameDecoder) : Nat := 2 * d.inBuf.length + (if d.discardingTooLongFrame then 1 else 0)

/-- An iteration that leaves the state unchanged repeats for ever. -/
theorem loop_forever {d : FrameDecoder} {arr : Bytes} (h : decode d = .ok (some arr, d))
    (h0 : ¬ ((arr.length : Int) + d.initialBytesToStrip > 0)) : ∀ n resp, decodeLoop n d resp = .hang := by
  intro n
  induction n with
  | zero => intro resp; rfl
  | succ n ih =>
    intro resp
    rw [decodeLoop, h]
    simp only
    rw [if_neg h0]
    exact ih _

/-- Fuel adequacy: beyond `measure d + 1` iterations the result no longer depends on the iteration bound. -/
theorem decodeLoop_fuel (d : FrameDecoder) : ∀ n, measure d < n → ∀ m, measure d < m → ∀ resp,
    decodeLoop n d resp = decodeLoop m d resp := by
  induction hk : measure d using Nat.strongRecOn generalizing d with
  | ind k ih =>
    intro n hn m hm resp
    obtain ⟨n, rfl⟩ : ∃ j, n = j + 1 := ⟨n - 1, by omega⟩
    obtain ⟨m, rfl⟩ : ∃ j, m = j + 1 := ⟨m - 1, by omega⟩
    cases hd : decode d with
    | error p => simp [decodeLoop, hd]
    | ok r =>
      obtain ⟨o, d'⟩ := r
      cases o with
      | none => simp [decodeLoop, hd]
      | some arr =>
        obtain ⟨h1, h2, h3, h4, h5, h6⟩ := decode_some hd
        by_cases hsz : (arr.length : Int) + d'.initialBytesToStrip > 0
        · simp only [decodeLoop, hd]
          rw [if_pos hsz, if_pos hsz, if_neg (by rw [h1]; omega), if_neg (by rw [h1]; omega)]
          have hm' : measure { d' with inBuf := d'.inBuf.drop ((arr.length : Int) + d'.initialBytesToStrip).toNat } < k := by
            subst hk
            simp only [measure, h4, List.length_drop, h1]
            simp only [Bool.false_eq_true, if_false]
            have : 0 < ((arr.length : Int) + d'.initialBytesToStrip).toNat := by omega
            have : ((arr.length : Int) + d'.initialBytesToStrip).toNat ≤ d.inBuf.length := by omega
            omega
          exact ih _ hm' _ rfl _ (by omega) _ (by omega) _
        · cases hdisc : d.discardingTooLongFrame with
          | false =>
            have := h3 hdisc
            subst this
            rw [loop_forever hd hsz, loop_forever hd hsz]
          | true =>
            simp only [decodeLoop, hd]
            rw [if_neg hsz, if_neg hsz]
            have hm' : measure d' < k := by
              subst hk
              simp only [measure, h4, h1, hdisc]
              simp
            exact ih _ hm' _ rfl _ (by omega) _ (by omega) _

theorem decodeLoop_mono {n : Nat} {d : FrameDecoder} {resp : List Bytes}
    (h : decodeLoop n d resp ≠ .hang) : ∀ m, n ≤ m → decodeLoop m d resp = decodeLoop n d resp := by
  induction n generalizing d resp with
  | zero => exact absurd rfl h
  | succ n ih =>
    intro m hm
    obtain ⟨m, rfl⟩ : ∃ j, m = j + 1 := ⟨m - 1, by omega⟩
    simp only [decodeLoop] at h ⊢
    cases hd : decode d with
    | error p => rfl
    | ok r =>
      obtain ⟨o, d'⟩ := r
      cases o with
      | none => rfl
      | some arr =>
        simp only [hd] at h ⊢
        split
        · rename_i hs
          rw [if_pos hs] at h
          split
          · rfl
          · rename_i hs2
            rw [if_neg hs2] at h
            exact ih h _ (by omega)
        · rename_i hs
          rw [if_neg hs] at h
          exact ih h _ (by omega)

/-- `Decode` reports `hang` exactly when the Go loop runs for ever, i.e. no number of iterations suffices. -/
theorem decode_hang_iff (d : FrameDecoder) (buff : Bytes) :
    Decode d buff = .hang ↔ ∀ n, decodeLoop n { d with inBuf := d.inBuf ++ buff } [] = .hang := by
  constructor
  · intro h n
    have hmeas : measure { d with inBuf := d.inBuf ++ buff } < 2 * (d.inBuf.length + buff.length) + 3 := by
      simp only [measure, List.length_append]; split <;> omega
    by_cases hle : n ≤ 2 * (d.inBuf.length + buff.length) + 3
    · by_cases hh : decodeLoop n { d with inBuf := d.inBuf ++ buff } [] = .hang
      · exact hh
      · have := decodeLoop_mono hh _ hle
        unfold Decode at h
        rw [h] at this
        exact this.symm
    · rw [decodeLoop_fuel _ n (by omega) _ hmeas]
      exact h
  · intro h
    exact h _

/-- Any iteration count that suffices gives the result of `Decode`. -/
theorem decode_eq_loop (d : FrameDecoder) (buff : Bytes) (n : Nat)
    (h : decodeLoop n { d with inBuf := d.inBuf ++ buff } [] ≠ .hang) :
    Decode d buff = decodeLoop n { d with inBuf := d.inBuf ++ buff } [] := by
  have hmeas : measure { d with inBuf := d.inBuf ++ buff } < 2 * (d.inBuf.length + buff.length) + 3 := by
    simp only [measure, List.length_append]; split <;> omega
  unfold Decode
  by_cases hle : n ≤ 2 * (d.inBuf.length + buff.length) + 3
  · exact decodeLoop_mono h _ hle
  · exact decodeLoop_fuel _ _ hmeas _ (by omega) _

/-! ### Totality -/

/-- Decoder for format `f`, in any mode (also while discarding). -/
structure Healthy (f : FrameFormat) (d : FrameDecoder) : Prop where
  off : d.lengthFieldOffset = f.offset
  len : d.lengthFieldLength = f.width
  adj : d.lengthAdjustment = f.adjust
  strip : d.initialBytesToStrip = f.strip
  order : d.order = f.order
  endOff : d.lengthFieldEndOffset = (f.offset + f.width : Nat)
  discard : 0 ≤ d.bytesToDiscard
  max : d.maxFrameLength = f.max

/-- `arr` was cut out of some bytes that start with an acceptable header announcing exactly this frame. -/
def Cut (f : FrameFormat) (arr : Bytes) : Prop :=
  ∃ s n, f.Starts s n ∧ n ≤ s.length ∧ arr = (s.take n).drop f.strip

/-- Formats for which no announced length can be bad: an unsigned length field, and the bytes that are always there
(header plus adjustment) are at least one and cover what is stripped, or make every frame too long. -/
structure _root_.Zinx.Spec.FrameFormat.Safe (f : FrameFormat) : Prop where
  width : f.width = 1 ∨ f.width = 2 ∨ f.width = 3 ∨ f.width = 4
  base_pos : 1 ≤ f.adjust + (f.offset + f.width : Nat)
  base_strip : (f.strip : Int) ≤ f.adjust + (f.offset + f.width : Nat) ∨ (f.max : Int) < f.adjust + (f.offset + f.width : Nat)
  base_fits : f.adjust + (f.offset + f.width : Nat) < 2 ^ 62

theorem fieldValue_nonneg_small {f : FrameFormat}
    (hw : f.width = 1 ∨ f.width = 2 ∨ f.width = 3 ∨ f.width = 4) (s : Bytes) :
    0 ≤ f.fieldValue s ∧ f.fieldValue s < 2 ^ 32 := by
  have hlen : (f.field s).length ≤ 4 := by
    simp [FrameFormat.field]; omega
  have hlt := uintValue_lt f.order (f.field s)
  have h4 : 256 ^ (f.field s).length ≤ 256 ^ 4 := Nat.pow_le_pow_right (by decide) hlen
  have h5 : (256 : Nat) ^ 4 = 2 ^ 32 := by decide
  unfold FrameFormat.fieldValue
  simp only
  rw [if_neg (by omega)]
  omega

theorem healthy_fail {f d} (h : Healthy f d) : Healthy f (failIfNecessary d) := by
  unfold failIfNecessary
  split
  · exact ⟨h.off, h.len, h.adj, h.strip, h.order, h.endOff, h.discard, h.max⟩
  · exact h

theorem exceeded_total {f : FrameFormat} {d : FrameDecoder} (h : Healthy f d) (inb : Bytes) {n : Int} (hn : 0 ≤ n) :
    ∃ d', exceededFrameLength d inb n = .ok d' ∧ Healthy f d' ∧ d'.inBuf = d.inBuf := by
  unfold exceededFrameLength
  simp only [bind, Except.bind, pure, Except.pure, bufNext]
  split
  · rw [if_neg (by omega)]
    exact ⟨_, rfl, healthy_fail ⟨h.off, h.len, h.adj, h.strip, h.order, h.endOff, h.discard, h.max⟩,
      by rw [failIfNecessary_inBuf]⟩
  · rename_i hdis
    refine ⟨_, rfl, healthy_fail ⟨h.off, h.len, h.adj, h.strip, h.order, h.endOff, ?_, h.max⟩,
      by rw [failIfNecessary_inBuf]⟩
    simp only; omega

theorem decode_total {f : FrameFormat} (hf : f.Safe) {d : FrameDecoder} (h : Healthy f d) :
    ∃ o d', decode d = .ok (o, d') ∧ Healthy f d' ∧ d'.inBuf = d.inBuf ∧
      ∀ arr, o = some arr → 1 ≤ (arr.length : Int) + f.strip ∧ Cut f arr := by
  -- local buffer and state after the optional discarding
  have hpre : ∃ d1 inb, beginDecode d = .ok (d1, inb) ∧ Healthy f d1 ∧ d1.inBuf = d.inBuf := by
    unfold beginDecode
    cases hd : d.discardingTooLongFrame with
    | false => exact ⟨d, d.inBuf, rfl, h, rfl⟩
    | true =>
      have := h.discard
      simp only [if_true, discardingTooLongFrameFunc, bind, Except.bind, pure, Except.pure, bufNext]
      rw [if_neg (by omega)]
      refine ⟨_, _, rfl, healthy_fail ⟨h.off, h.len, h.adj, h.strip, h.order, h.endOff, ?_, h.max⟩, ?_⟩
      · simp only; omega
      · rw [failIfNecessary_inBuf]
  obtain ⟨d1, inb, he, h1, hin⟩ := hpre
  unfold decode
  rw [he]
  simp only [bind, Except.bind, pure, Except.pure]
  split
  · exact ⟨none, d1, rfl, h1, hin, by simp⟩
  · rename_i hlen
    have hh : f.HasHeader inb := by
      rw [h1.endOff] at hlen; unfold FrameFormat.HasHeader; omega
    have hu : getUnadjustedFrameLength inb d1.lengthFieldOffset d1.lengthFieldLength d1.order =
        .ok (f.fieldValue inb) := by
      rw [h1.off, h1.len, h1.order]
      exact getUnadjusted_eq (by rcases hf.width with h | h | h | h <;> simp [h]) hh
    rw [hu]
    have hfv := fieldValue_nonneg_small hf.width inb
    simp only
    rw [if_neg (by omega)]
    have hfl : wrap64 (f.fieldValue inb + wrap64 (d1.lengthAdjustment + d1.lengthFieldEndOffset)) =
        f.fieldValue inb + (f.adjust + (f.offset + f.width : Nat)) := by
      have := hf.base_fits; have := hf.base_pos
      rw [wrap64_add_wrap64, h1.adj, h1.endOff, wrap64_of_range] <;> omega
    rw [hfl]
    have hb := hf.base_pos
    have hs := hf.base_strip
    split
    · -- too long
      obtain ⟨d2, hd2, hh2, hin2⟩ := exceeded_total h1 inb
        (n := f.fieldValue inb + (f.adjust + (f.offset + f.width : Nat))) (by omega)
      rw [hd2]
      exact ⟨none, d2, rfl, hh2, hin2.trans hin, by simp⟩
    · rename_i hmax
      split
      · exact ⟨none, d1, rfl, h1, hin, by simp⟩
      · rename_i hle
        have hbf := hf.base_fits
        rw [toU64_of_nonneg (by omega) (by omega), h1.max] at hmax
        rw [if_neg (by rw [h1.strip]; omega)]
        unfold bufNext
        rw [h1.strip, if_neg (by omega)]
        refine ⟨some _, d1, rfl, h1, hin, ?_⟩
        intro arr ha
        injection ha with ha
        subst ha
        constructor
        · simp
          omega
        · obtain ⟨n, hn⟩ : ∃ n : Nat, f.fieldValue inb + (f.adjust + (f.offset + f.width : Nat)) = n :=
            ⟨_, (Int.toNat_of_nonneg (by omega)).symm⟩
          rw [hn] at hmax hle ⊢
          have hst : f.Starts inb n := by
            refine ⟨hh, hfv.1, ?_, by omega, by omega, by omega⟩
            unfold FrameFormat.announced; omega
          refine ⟨inb, n, hst, by omega, ?_⟩
          have : ((n : Int) - (f.strip : Int)).toNat = n - f.strip := by omega
          rw [this, Int.toNat_natCast, ← List.drop_take]

theorem decodeLoop_total {f : FrameFormat} (hf : f.Safe) : ∀ (n : Nat) (d : FrameDecoder), Healthy f d →
    d.inBuf.length < n → ∀ resp, ∃ fs d', decodeLoop n d resp = .ret (resp ++ fs) d' ∧ Healthy f d' ∧
      ∀ fr ∈ fs, Cut f fr := by
  intro n
  induction n with
  | zero => intro d _ h; omega
  | succ n ih =>
    intro d hd hn resp
    obtain ⟨o, d', he, hd', hin, ho⟩ := decode_total hf hd
    rw [decodeLoop, he]
    cases o with
    | none => exact ⟨[], _, by simp, hd', by simp⟩
    | some arr =>
      have h1 := (ho arr rfl).1
      obtain ⟨_, _, _, _, _, h6⟩ := decode_some he
      have hst := hd'.strip
      simp only
      rw [if_pos (by omega), if_neg (by rw [hin]; omega)]
      obtain ⟨fs, d'', h7, h8, h9⟩ := ih { d' with inBuf := d'.inBuf.drop ((arr.length : Int) + d'.initialBytesToStrip).toNat }
        ⟨hd'.off, hd'.len, hd'.adj, hd'.strip, hd'.order, hd'.endOff, hd'.discard, hd'.max⟩
        (by simp only [List.length_drop, hin]; omega) (resp ++ [arr])
      refine ⟨arr :: fs, d'', by rw [h7]; simp, h8, ?_⟩
      intro fr hfr
      rcases List.mem_cons.1 hfr with rfl | hfr
      · exact (ho fr rfl).2
      · exact h9 fr hfr

theorem Decode_total {f : FrameFormat} (hf : f.Safe) (d : FrameDecoder) (h : Healthy f d) (buff : Bytes) :
    ∃ fs d', Decode d buff = .ret fs d' ∧ Healthy f d' ∧ ∀ fr ∈ fs, Cut f fr := by
  unfold Decode
  have := decodeLoop_total hf (2 * (d.inBuf.length + buff.length) + 3) { d with inBuf := d.inBuf ++ buff }
    ⟨h.off, h.len, h.adj, h.strip, h.order, h.endOff, h.discard, h.max⟩ (by simp; omega) []
  simpa using this

theorem decodeReads_total {f : FrameFormat} (hf : f.Safe) (reads : List Bytes) : ∀ (d : FrameDecoder), Healthy f d →
    ∃ fs d', decodeReads d reads = .ret fs d' ∧ Healthy f d' ∧ ∀ fr ∈ fs, Cut f fr := by
  induction reads with
  | nil => intro d h; exact ⟨[], d, rfl, h, by simp⟩
  | cons r rs ih =>
    intro d h
    obtain ⟨fs, d', he, hd', hc⟩ := Decode_total hf d h r
    obtain ⟨fs', d'', he', hd'', hc'⟩ := ih d' hd'
    refine ⟨fs ++ fs', d'', by simp [decodeReads, he, he'], hd'', ?_⟩
    intro fr hfr
    rcases List.mem_append.1 hfr with h | h
    · exact hc fr h
    · exact hc' fr h

/-- When header and adjustment leave the header inside the frame and nothing is stripped, every frame handed out is a
whole acceptable frame. -/
theorem Cut.isFrame {f : FrameFormat} (hw : f.width = 1 ∨ f.width = 2 ∨ f.width = 3 ∨ f.width = 4)
    (ha : 0 ≤ f.adjust) (h0 : f.strip = 0) {fr : Bytes} (h : Cut f fr) : f.IsFrame fr := by
  obtain ⟨s, n, hs, hle, rfl⟩ := h
  have hfv := fieldValue_nonneg_small hw s
  have hl := hs.length
  unfold FrameFormat.announced at hl
  have hh : f.HasHeader (s.take n) := by
    unfold FrameFormat.HasHeader
    simp only [List.length_take]; omega
  have hlen : (s.take n).length = n := by simp; omega
  rw [h0, List.drop_zero]
  unfold FrameFormat.IsFrame
  rw [hlen, ← starts_append hh (s.drop n), List.take_append_drop]
  exact hs

end Zinx.Frame
