import Verif.Model.Log
import Verif.Spec.Log

/-! # Lemmas about log lines -/

namespace Zinx.Log

theorem decVal_snoc (s : Bytes) (b : UInt8) : decVal (s ++ [b]) = 10 * decVal s + (b.toNat - 48) := by
  unfold decVal; rw [List.foldl_append]; rfl

theorem digit_toNat (u : Nat) : (UInt8.ofNat (u % 10 + 48)).toNat = u % 10 + 48 := by
  rw [UInt8.toNat_ofNat']
  omega

theorem itoaLoop_spec (room : Nat) : ∀ (u : Nat) (wid : Int) (acc : Bytes), u < 10 ^ room → wid ≤ room →
    ∃ ds, itoaLoop room u wid acc = some (ds ++ acc) ∧ (∀ b ∈ ds, isDigit b) ∧ decVal ds = u ∧ wid ≤ ds.length ∧
      (ds.length > wid.toNat → ds.head? ≠ some 48) ∧ (u > 0 ∨ wid > 0 → ds ≠ []) := by
  induction room with
  | zero =>
    intro u wid acc hu hw
    have h0 : ¬ (u > 0 ∨ wid > 0) := by rw [Nat.pow_zero] at hu; omega
    refine ⟨[], ?_, nofun, ?_, ?_, nofun, fun h => absurd h h0⟩
    · unfold itoaLoop; rw [if_neg h0]; rfl
    · show 0 = u; omega
    · show wid ≤ 0; omega
  | succ room ih =>
    intro u wid acc hu hw
    unfold itoaLoop
    by_cases h0 : u > 0 ∨ wid > 0
    · rw [if_pos h0]
      obtain ⟨ds, e, h1, h2, h3, h4, h5⟩ := ih (u / 10) (wid - 1) (UInt8.ofNat (u % 10 + 48) :: acc) (by rw [Nat.pow_succ] at hu; omega) (by omega)
      refine ⟨ds ++ [UInt8.ofNat (u % 10 + 48)], ?_, ?_, ?_, ?_, ?_, ?_⟩
      · rw [e]; simp
      · intro b hb
        rw [List.mem_append, List.mem_singleton] at hb
        rcases hb with hb | hb
        · exact h1 b hb
        · subst hb
          unfold isDigit
          rw [digit_toNat]
          omega
      · rw [decVal_snoc, h2, digit_toNat]; omega
      · rw [List.length_append]; simp only [List.length_cons, List.length_nil]; omega
      · intro hl
        rw [List.length_append] at hl
        simp only [List.length_cons, List.length_nil] at hl
        cases ds with
        | nil =>
          simp only [List.nil_append, List.head?_cons]
          intro he
          injection he with he
          have hv : u / 10 = 0 := h2.symm
          have ht : (UInt8.ofNat (u % 10 + 48)).toNat = 48 := by rw [he]; rfl
          rw [digit_toNat] at ht
          simp only [List.length_nil] at hl
          omega
        | cons a ds =>
          have := h4 (by simp only [List.length_cons] at hl ⊢; omega)
          simpa using this
      · intro _
        simp
    · rw [if_neg h0]
      refine ⟨[], rfl, nofun, ?_, ?_, nofun, fun h => absurd h h0⟩
      · show 0 = u; omega
      · show wid ≤ 0; omega

theorem toU64_lt (i : Int) : toU64 i < 10 ^ 32 := by
  unfold toU64
  have := Int.emod_lt_of_pos i (b := 2 ^ 64) (by decide)
  have : (10 : Nat) ^ 32 = 100000000000000000000000000000000 := by decide
  omega

theorem toU64_nonneg {i : Int} (h0 : 0 ≤ i) (h1 : i < 2 ^ 63) : toU64 i = i.toNat := by
  unfold toU64
  rw [Int.emod_eq_of_lt h0 (by omega)]

theorem itoa_total (i wid : Int) (hw : wid ≤ 32) : ∃ s, itoa i wid = some s ∧ IsDec wid.toNat (toU64 i) s := by
  unfold itoa
  dsimp only
  by_cases h : toU64 i = 0 ∧ wid ≤ 1
  · rw [if_pos h]
    refine ⟨[48], rfl, ?_, ?_, by simp, ?_, ?_⟩
    · intro b hb
      rw [List.mem_singleton] at hb
      subst hb
      unfold isDigit
      decide
    · rw [h.1]; rfl
    · show wid.toNat ≤ 1; omega
    · intro _ h2; exact absurd h2 (by decide)
  · rw [if_neg h]
    obtain ⟨ds, e, h1, h2, h3, h4, h5⟩ := itoaLoop_spec 32 (toU64 i) wid [] (toU64_lt i) (by omega)
    rw [List.append_nil] at e
    refine ⟨ds, e, h1, h2, h5 (by omega), by omega, fun hl _ => h4 hl⟩

theorem itoa_dec {i wid : Int} (h0 : 0 ≤ i) (h1 : i < 2 ^ 63) (hw : wid ≤ 32) : ∃ s, itoa i wid = some s ∧ IsDec wid.toNat i.toNat s := by
  obtain ⟨s, e, h⟩ := itoa_total i wid hw
  rw [toU64_nonneg h0 h1] at h
  exact ⟨s, e, h⟩

theorem shortFrom_spec (file : Bytes) : ∀ i, i < file.length ∨ i = 0 → (∀ j, i < j → file[j]? ≠ some 47) → IsShort file (shortFrom file i) := by
  intro i
  induction i with
  | zero =>
    intro _ hj
    right
    refine ⟨rfl, ?_⟩
    intro a b e
    apply Classical.byContradiction
    intro ha
    have hl : 0 < a.length := List.length_pos_iff.mpr ha
    apply hj a.length hl
    rw [e, List.getElem?_append_right (Nat.le_refl _), Nat.sub_self]
    rfl
  | succ i ih =>
    intro hi hj
    unfold shortFrom
    by_cases h : file[i + 1]? = some 47
    · rw [if_pos h]
      left
      have hlen : i + 1 < file.length := by omega
      have hg : file[i + 1] = 47 := by
        rw [List.getElem?_eq_getElem hlen] at h
        exact Option.some.inj h
      refine ⟨file.take (i + 1), ?_, ?_, ?_⟩
      · intro e
        have := congrArg List.length e
        rw [List.length_take, List.length_nil] at this
        omega
      · rw [← hg, ← List.drop_eq_getElem_cons hlen, List.take_append_drop]
      · intro hm
        obtain ⟨k, hk⟩ := List.getElem?_of_mem hm
        rw [List.getElem?_drop] at hk
        exact hj _ (by omega) hk
    · rw [if_neg h]
      apply ih (by omega)
      intro j hlt
      by_cases e : j = i + 1
      · rw [e]; exact h
      · exact hj j (by omega)

theorem short_spec (file : Bytes) : IsShort file (shortFrom file (file.length - 1)) := by
  apply shortFrom_spec
  · omega
  · intro j hj
    rw [List.getElem?_eq_none (by omega)]
    nofun

theorem hasAny_twoPow (f : BitVec 64) (k : Nat) (hk : k < 64) : hasAny f (BitVec.twoPow 64 k) = f.getLsbD k := by
  unfold hasAny
  rw [BitVec.and_twoPow]
  cases h : f.getLsbD k
  · simp
  · rw [if_pos rfl]
    have : BitVec.twoPow 64 k ≠ 0 := by
      intro e
      have := congrArg (fun x => x.getLsbD k) e
      simp [hk] at this
    simpa using this

theorem hasAny_or (f a b : BitVec 64) : hasAny f (a ||| b) = (hasAny f a || hasAny f b) := by
  unfold hasAny
  rw [BitVec.and_or_distrib_left]
  generalize f &&& a = x
  generalize f &&& b = y
  rw [Bool.eq_iff_iff, Bool.or_eq_true, bne_iff_ne, bne_iff_ne, bne_iff_ne]
  have : (x ||| y = 0) ↔ x = 0 ∧ y = 0 := by
    constructor
    · intro h
      constructor
      · apply BitVec.eq_of_getLsbD_eq
        intro i hi
        have := congrArg (fun x => x.getLsbD i) h
        simp at this
        simp [this.1]
      · apply BitVec.eq_of_getLsbD_eq
        intro i hi
        have := congrArg (fun x => x.getLsbD i) h
        simp at this
        simp [this.2]
    · rintro ⟨rfl, rfl⟩; rfl
  rw [Ne, this]
  exact Decidable.not_and_iff_not_or_not

theorem hasAny_date (f : BitVec 64) : hasAny f bitDate = f.getLsbD 0 := hasAny_twoPow f 0 (by decide)
theorem hasAny_time (f : BitVec 64) : hasAny f bitTime = f.getLsbD 1 := hasAny_twoPow f 1 (by decide)
theorem hasAny_micro (f : BitVec 64) : hasAny f bitMicroSeconds = f.getLsbD 2 := hasAny_twoPow f 2 (by decide)
theorem hasAny_long (f : BitVec 64) : hasAny f bitLongFile = f.getLsbD 3 := hasAny_twoPow f 3 (by decide)
theorem hasAny_short (f : BitVec 64) : hasAny f bitShortFile = f.getLsbD 4 := hasAny_twoPow f 4 (by decide)
theorem hasAny_level (f : BitVec 64) : hasAny f bitLevel = f.getLsbD 5 := hasAny_twoPow f 5 (by decide)

end Zinx.Log
