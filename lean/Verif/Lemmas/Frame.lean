import Verif.Lemmas.Bytes

namespace Zinx.Frame

open Zinx Zinx.Spec

/-- The decoder is configured for the format and is in normal (not discarding) mode. -/
structure Matches (f : FrameFormat) (d : FrameDecoder) : Prop where
  max : d.maxFrameLength = f.max
  off : d.lengthFieldOffset = f.offset
  len : d.lengthFieldLength = f.width
  adj : d.lengthAdjustment = f.adjust
  strip : d.initialBytesToStrip = f.strip
  order : d.order = f.order
  endOff : d.lengthFieldEndOffset = (f.offset + f.width : Nat)
  normal : d.discardingTooLongFrame = false

theorem Matches.setBuf {f d} (h : Matches f d) (b : Bytes) : Matches f { d with inBuf := b } :=
  ⟨h.max, h.off, h.len, h.adj, h.strip, h.order, h.endOff, h.normal⟩

theorem getUnadjusted_eq {f : FrameFormat}
    (hv : f.width = 1 ∨ f.width = 2 ∨ f.width = 3 ∨ f.width = 4 ∨ f.width = 8) {s : Bytes} (hs : f.HasHeader s) :
    getUnadjustedFrameLength s f.offset f.width f.order = .ok (f.fieldValue s) := by
  unfold FrameFormat.HasHeader at hs
  have hlen : (f.field s).length = f.width := by
    simp [FrameFormat.field]; omega
  have hlt := uintValue_lt f.order (f.field s)
  rw [hlen] at hlt
  have hfield : (s.drop (f.offset : Int).toNat).take (f.width : Int).toNat = f.field s := by
    simp [FrameFormat.field]
  unfold getUnadjustedFrameLength
  rw [if_neg (by omega)]
  simp only [hfield]
  rcases hv with h | h | h | h | h
  · rw [if_pos (by omega), binaryUint_eq]
    simp [FrameFormat.fieldValue, h]
  · rw [if_pos (by omega), binaryUint_eq]
    simp [FrameFormat.fieldValue, h]
  · rw [if_neg (by omega), if_pos (by omega)]
    rw [h] at hlen
    match hm : f.field s, hlen with
    | [a0, a1, a2], _ =>
      have h0 := a0.toNat_lt; have h1 := a1.toNat_lt; have h2 := a2.toNat_lt
      cases ho : f.order
      · simp only [or_shift3 _ _ _ h2 h1]
        simp [FrameFormat.fieldValue, h, ho, uintValue, hm, beValue]
        omega
      · simp only [or_shift3 _ _ _ h0 h1]
        simp [FrameFormat.fieldValue, h, ho, uintValue, hm, leValue]
        omega
  · rw [if_pos (by omega), binaryUint_eq]
    simp [FrameFormat.fieldValue, h]
  · rw [if_neg (by omega), if_neg (by omega), if_pos (by omega), binaryUint_eq]
    simp only [FrameFormat.fieldValue, h, true_and]
    rw [h] at hlt
    have : (256:Nat) ^ 8 = 2 ^ 64 := by decide
    rw [this] at hlt
    unfold wrap64
    have h1 := Int.bmod_def (uintValue f.order (f.field s)) (2 ^ 64)
    have h2 : Int.bmod (uintValue f.order (f.field s)) (2 ^ 64) =
        if ((uintValue f.order (f.field s) : Nat) : Int) ≥ 2 ^ 63 then
          ((uintValue f.order (f.field s) : Nat) : Int) - 2 ^ 64
        else ((uintValue f.order (f.field s) : Nat) : Int) := by
      split <;> omega
    rw [h2]

/-- The decoder computes the announced length when it is in range. -/
theorem frameLength_eq {f : FrameFormat} (hv : f.Valid) {s : Bytes} {n : Nat} (hs : f.Starts s n)
    : wrap64 (f.fieldValue s + wrap64 (f.adjust + (f.offset + f.width : Nat))) = n := by
  rw [wrap64_add_wrap64]
  have h1 := hs.length
  unfold FrameFormat.announced at h1
  have h2 := hs.le_max
  have h3 := hv.maxFits
  rw [wrap64_of_range] <;> omega

theorem decode_short {f : FrameFormat} {d : FrameDecoder} (hm : Matches f d)
    (hs : d.inBuf.length < f.offset + f.width) : decode d = .ok (none, d) := by
  unfold decode beginDecode
  simp only [hm.normal]
  have : (d.inBuf.length : Int) < d.lengthFieldEndOffset := by rw [hm.endOff]; omega
  simp [bind, Except.bind, this, pure, Except.pure]

theorem decode_starts {f : FrameFormat} (hv : f.Valid) {d : FrameDecoder} (hm : Matches f d) {n : Nat}
    (hs : f.Starts d.inBuf n) :
    decode d = if d.inBuf.length < n then .ok (none, d)
      else .ok (some ((d.inBuf.take n).drop f.strip), d) := by
  have hh := hs.header
  have hlen : ¬ ((d.inBuf.length : Int) < d.lengthFieldEndOffset) := by
    rw [hm.endOff]; unfold FrameFormat.HasHeader at hh; omega
  have hu := getUnadjusted_eq hv.width hh
  rw [← hm.off, ← hm.len, ← hm.order] at hu
  have hn := frameLength_eq hv hs
  rw [← hm.adj, ← hm.endOff] at hn
  have h3 := hv.maxFits
  have h4 := hs.le_max
  have h5 := hs.strip
  have h6 : ¬ (f.fieldValue d.inBuf < 0) := by have := hs.nonneg; omega
  have h7 : ¬ (toU64 (n : Int) > d.maxFrameLength) := by
    rw [toU64_of_nonneg (by omega) (by omega), hm.max]; omega
  have h8 : ¬ ((f.strip : Int) > (n : Int)) := by omega
  unfold decode beginDecode
  simp only [hm.normal, bind, Except.bind, Bool.false_eq_true, if_false, hlen, hu, h6, hn, h7]
  by_cases hc : d.inBuf.length < n
  · simp [hc, pure, Except.pure]
  · have hc' : ¬ ((d.inBuf.length : Int) < n) := by omega
    have h9 : ¬ (d.initialBytesToStrip > (n : Int)) := by rw [hm.strip]; omega
    simp only [hc, hc', if_false, h9]
    unfold bufNext
    rw [hm.strip, if_neg (by omega)]
    simp only [pure, Except.pure]
    congr 3
    rw [List.drop_take]
    congr 1
    omega

theorem decode_incomplete {f : FrameFormat} (hv : f.Valid) {d : FrameDecoder} (hm : Matches f d)
    (hi : f.Incomplete d.inBuf) : decode d = .ok (none, d) := by
  rcases hi with h | ⟨n, hs, hlt⟩
  · exact decode_short hm h
  · rw [decode_starts hv hm hs, if_pos hlt]

/-- The header only depends on the first bytes. -/
theorem field_append {f : FrameFormat} {a : Bytes} (h : f.HasHeader a) (b : Bytes) :
    f.field (a ++ b) = f.field a := by
  unfold FrameFormat.HasHeader at h
  unfold FrameFormat.field
  rw [List.drop_append_of_le_length (by omega), List.take_append_of_le_length (by simp; omega)]

theorem fieldValue_append {f : FrameFormat} {a : Bytes} (h : f.HasHeader a) (b : Bytes) :
    f.fieldValue (a ++ b) = f.fieldValue a := by
  unfold FrameFormat.fieldValue
  rw [field_append h]

theorem starts_append {f : FrameFormat} {a : Bytes} (h : f.HasHeader a) (b : Bytes) (n : Nat) :
    f.Starts (a ++ b) n ↔ f.Starts a n := by
  constructor
  · intro hs
    refine ⟨h, ?_, ?_, hs.pos, hs.le_max, hs.strip⟩
    · rw [← fieldValue_append h b]; exact hs.nonneg
    · have := hs.length
      unfold FrameFormat.announced at this ⊢
      rwa [fieldValue_append h b] at this
  · intro hs
    refine ⟨?_, ?_, ?_, hs.pos, hs.le_max, hs.strip⟩
    · unfold FrameFormat.HasHeader at *; simp; omega
    · rw [fieldValue_append h b]; exact hs.nonneg
    · have := hs.length
      unfold FrameFormat.announced at this ⊢
      rwa [fieldValue_append h b]

theorem starts_unique {f : FrameFormat} {a : Bytes} {n m : Nat} (h1 : f.Starts a n) (h2 : f.Starts a m) : n = m := by
  have := h1.length; have := h2.length; omega

/-- Any division point of a clean stream is fine. -/
theorem spells_split {f : FrameFormat} (a b : Bytes) (fs : List Bytes) (t : Bytes)
    (h : f.Spells (a ++ b) fs t) :
    ∃ fs1 t1 fs2, f.Spells a fs1 t1 ∧ f.Spells (t1 ++ b) fs2 t ∧ fs = fs1 ++ fs2 := by
  induction hn : a.length using Nat.strongRecOn generalizing a fs with
  | ind k ih =>
    by_cases hh : f.HasHeader a
    · cases h with
      | wait hi =>
        rcases hi with hlt | ⟨n, hs, hlt⟩
        · unfold FrameFormat.HasHeader at hh; simp at hlt; omega
        · refine ⟨[], a, [], .wait (.inr ⟨n, (starts_append hh b n).1 hs, ?_⟩), .wait (.inr ⟨n, hs, hlt⟩), rfl⟩
          simp at hlt; omega
      | @frame _ n fs' _ hs hle hrest =>
        have hs' := (starts_append hh b n).1 hs
        by_cases hna : n ≤ a.length
        · rw [List.drop_append_of_le_length hna] at hrest
          have hpos := hs.pos
          obtain ⟨fs1, t1, fs2, h1, h2, h3⟩ := ih (a.drop n).length (by simp; omega) (a.drop n) fs' hrest rfl
          refine ⟨_, t1, fs2, .frame hs' hna h1, h2, ?_⟩
          rw [h3, List.take_append_of_le_length hna]; rfl
        · exact ⟨[], a, _, .wait (.inr ⟨n, hs', by omega⟩), .frame hs hle hrest, rfl⟩
    · refine ⟨[], a, fs, .wait (.inl ?_), h, rfl⟩
      unfold FrameFormat.HasHeader at hh; omega

theorem decodeLoop_acc (n : Nat) (d : FrameDecoder) (resp : List Bytes) :
    decodeLoop n d resp = match decodeLoop n d [] with
      | .ret fs d' => .ret (resp ++ fs) d'
      | .panic p => .panic p
      | .hang => .hang := by
  induction n generalizing d resp with
  | zero => rfl
  | succ n ih =>
    simp only [decodeLoop]
    cases hd : decode d with
    | error p => rfl
    | ok r =>
      obtain ⟨o, d'⟩ := r
      cases o with
      | none => simp
      | some arr =>
        simp only
        split
        · split
          · rfl
          · rw [ih _ (resp ++ [arr]), ih _ ([] ++ [arr])]
            cases decodeLoop n _ [] <;> simp
        · rw [ih _ (resp ++ [arr]), ih _ ([] ++ [arr])]
          cases decodeLoop n _ [] <;> simp

/-- Main lemma: on a clean stream the loop returns what the reference description says. -/
theorem decodeLoop_spells {f : FrameFormat} (hv : f.Valid) {s : Bytes} {fs : List Bytes} {t : Bytes}
    (h : f.Spells s fs t) : ∀ (d : FrameDecoder), Matches f d → d.inBuf = s → ∀ (n : Nat), s.length < n →
      ∀ resp, decodeLoop n d resp = .ret (resp ++ fs) { d with inBuf := t } := by
  induction h with
  | @wait s hi =>
    intro d hm hb n hn resp
    obtain ⟨n, rfl⟩ : ∃ k, n = k + 1 := ⟨n - 1, by omega⟩
    subst hb
    simp [decodeLoop, decode_incomplete hv hm hi]
  | @frame s m fs t hs hle hrest ih =>
    intro d hm hb n hn resp
    obtain ⟨n, rfl⟩ : ∃ k, n = k + 1 := ⟨n - 1, by omega⟩
    subst hb
    have h5 := hs.strip
    have hpos := hs.pos
    have hsz : (((d.inBuf.take m).drop f.strip).length : Int) + d.initialBytesToStrip = m := by
      rw [hm.strip]; simp; omega
    rw [decodeLoop, decode_starts hv hm hs, if_neg (by omega)]
    simp only [hsz]
    rw [if_pos (by omega), if_neg (by omega)]
    rw [ih _ (hm.setBuf _) (by simp) n (by simp; omega)]
    simp

theorem Decode_spells {f : FrameFormat} (hv : f.Valid) {d : FrameDecoder} (hm : Matches f d) {buff : Bytes}
    {fs : List Bytes} {t : Bytes} (h : f.Spells (d.inBuf ++ buff) fs t) :
    Decode d buff = .ret fs { d with inBuf := t } := by
  unfold Decode
  rw [decodeLoop_spells hv h _ (hm.setBuf _) rfl _ (by simp; omega)]
  simp

theorem spells_rest_incomplete {f : FrameFormat} {s fs t} (h : f.Spells s fs t) : f.Incomplete t := by
  induction h with
  | wait h => exact h
  | frame _ _ _ ih => exact ih

theorem decodeReads_spells {f : FrameFormat} (hv : f.Valid) (reads : List Bytes) :
    ∀ (d : FrameDecoder), Matches f d → f.Incomplete d.inBuf → ∀ fs t, f.Spells (d.inBuf ++ reads.flatten) fs t →
      decodeReads d reads = .ret fs { d with inBuf := t } := by
  induction reads with
  | nil =>
    intro d hm hi fs t h
    simp only [List.flatten_nil, List.append_nil] at h
    have : fs = [] ∧ t = d.inBuf := by
      cases h with
      | wait => exact ⟨rfl, rfl⟩
      | @frame _ n _ _ hs hle _ =>
        exfalso
        rcases hi with h | ⟨m, hs', hlt⟩
        · have := hs.header; unfold FrameFormat.HasHeader at this; omega
        · have := starts_unique hs hs'; omega
    simp [decodeReads, this]
  | cons r rs ih =>
    intro d hm hi fs t h
    rw [List.flatten_cons, ← List.append_assoc] at h
    obtain ⟨fs1, t1, fs2, h1, h2, h3⟩ := spells_split _ _ _ _ h
    have hd := Decode_spells hv hm h1
    simp only [decodeReads, hd]
    rw [ih _ (hm.setBuf t1) (spells_rest_incomplete h1) fs2 t h2, h3]

/-! ### Frames -/

theorem spells_frames {f : FrameFormat} (frs : List Bytes) (hf : ∀ fr ∈ frs, f.IsFrame fr) (t : Bytes)
    (ht : f.Incomplete t) : f.Spells (frs.flatten ++ t) (frs.map (·.drop f.strip)) t := by
  induction frs with
  | nil => exact .wait ht
  | cons fr frs ih =>
    have hfr := hf fr (by simp)
    have hs : f.Starts (fr ++ (frs.flatten ++ t)) fr.length := (starts_append hfr.header _ _).2 hfr
    have := FrameFormat.Spells.frame (f := f) (s := fr ++ (frs.flatten ++ t)) (n := fr.length)
      (fs := frs.map (·.drop f.strip)) (t := t) hs (by simp)
      (by simpa using ih (fun x hx => hf x (by simp [hx])))
    simpa using this

theorem spells_unique {f : FrameFormat} {s fs t fs' t'} (h : f.Spells s fs t) (h' : f.Spells s fs' t') :
    fs = fs' ∧ t = t' := by
  induction h generalizing fs' t' with
  | @wait s hi =>
    cases h' with
    | wait => exact ⟨rfl, rfl⟩
    | @frame _ n _ _ hs hle _ =>
      exfalso
      rcases hi with h | ⟨m, hs', hlt⟩
      · have := hs.header; unfold FrameFormat.HasHeader at this; omega
      · have := starts_unique hs hs'; omega
  | @frame s n fs t hs hle hr ih =>
    cases h' with
    | wait hi =>
      exfalso
      rcases hi with h | ⟨m, hs', hlt⟩
      · have := hs.header; unfold FrameFormat.HasHeader at this; omega
      · have := starts_unique hs hs'; omega
    | @frame _ m fs2 _ hs2 hle2 hr2 =>
      have := starts_unique hs hs2
      subst this
      obtain ⟨h1, h2⟩ := ih hr2
      exact ⟨by rw [h1], h2⟩

end Zinx.Frame
