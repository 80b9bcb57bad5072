import Verif.Props.Conf
import Verif.Props.Log

/-! # Exact conditions of C59 and C61 -/

namespace Zinx.Props

open Zinx Zinx.Conf Zinx.Log

/-- **C59, exactly.** A setting follows the rule - the user's value if that is not zero, otherwise as before - for all configurations exactly if it
is not one of the five of `exceptions`. -/
theorem C59_exact (f : Field) :
    (∀ u g : Config, (userConfToGlobal u g).1.get f = if (u.get f).isZero then g.get f else u.get f) ↔
      f ∉ [.logIsolationLevel, .kcpStreamMode, .logSaveDays, .logFileSize, .logCons] := by
  constructor
  · intro h hf
    simp only [List.mem_cons, List.not_mem_nil, or_false] at hf
    rcases hf with rfl | rfl | rfl | rfl | rfl
    · exact absurd (h zero { defaults "." with logIsolationLevel := 2 }) (by decide)
    · exact absurd (h zero (defaults ".")) (by decide)
    · exact absurd (h { zero with logSaveDays := 7 } (defaults ".")) (by decide)
    · exact absurd (h { zero with logFileSize := 7 } (defaults ".")) (by decide)
    · exact absurd (h { zero with logCons := true } (defaults ".")) (by decide)
  · intro hf u g
    exact C59_partial u g f (by intro h; apply hf; simpa [exceptions] using h)

/-- **C61, exactly.** The header is made of the parts that the flags select, for all times, files and lines, exactly if one of the date, time and
microsecond flags is set or none of the level and file flags is. -/
theorem C61_exact (pre : Bytes) (flag : BitVec 64) (level : Nat) (hlevel : level ≤ 5) :
    (∀ (t : Time) (file : Bytes) (line : Int), Sensible t → 0 ≤ line ∧ line < 2 ^ 63 →
      ∃ short y mo d h mi s us ln, IsShort file short ∧ IsDec 4 t.year.toNat y ∧ IsDec 2 t.month.toNat mo ∧ IsDec 2 t.day.toNat d ∧
        IsDec 2 t.hour.toNat h ∧ IsDec 2 t.min.toNat mi ∧ IsDec 2 t.sec.toNat s ∧ IsDec 6 (t.nano.toNat / 1000) us ∧ IsDec 0 line.toNat ln ∧
        formatHeader pre flag t file line level = some (headerText pre flag level file short y mo d h mi s us ln)) ↔
      (flag.getLsbD 0 || flag.getLsbD 1 || flag.getLsbD 2) = true ∨ (flag.getLsbD 3 || flag.getLsbD 4 || flag.getLsbD 5) = false := by
  have sens : Sensible ⟨2019, 4, 11, 1, 15, 33, 123456789⟩ := ⟨by decide, by decide, by decide, by decide, by decide, by decide, by decide⟩
  constructor
  · intro h
    by_cases h1 : (flag.getLsbD 0 || flag.getLsbD 1 || flag.getLsbD 2) = true
    · exact .inl h1
    · right
      have h1 : (flag.getLsbD 0 || flag.getLsbD 1 || flag.getLsbD 2) = false := by simpa using h1
      obtain ⟨short, y, mo, d, h, mi, s, us, ln, -, -, -, -, -, -, -, -, -, e⟩ := h _ [] 1 sens (by decide)
      rw [C61_no_time_flag pre flag _ _ _ _ h1] at e
      simp only [Bool.or_eq_false_iff] at h1
      simp only [headerText, h1, Option.some.injEq] at e
      have e := congrArg List.length e
      have lv : flag.getLsbD 5 = true → 0 < (levelText level).length := by
        intro _
        rcases level with _ | _ | _ | _ | _ | _ | n
        all_goals first | decide | omega
      by_cases h5 : flag.getLsbD 5 = true
      · have := lv h5
        simp [h5, List.length_append] at e
        rw [e.1] at this; simp at this
      · by_cases h34 : (flag.getLsbD 4 || flag.getLsbD 3) = true
        · rw [if_pos h34] at e
          simp [List.length_append, lit] at e
        · simp_all
  · intro h t file line ht hline
    rcases h with h | h
    · exact C61_partial pre flag t file line level ht hline hlevel h
    · by_cases h1 : (flag.getLsbD 0 || flag.getLsbD 1 || flag.getLsbD 2) = true
      · exact C61_partial pre flag t file line level ht hline hlevel h1
      · have h1 : (flag.getLsbD 0 || flag.getLsbD 1 || flag.getLsbD 2) = false := by simpa using h1
        have ht' : (1#64 : BitVec 64).getLsbD 0 || (1#64 : BitVec 64).getLsbD 1 || (1#64 : BitVec 64).getLsbD 2 := by decide
        obtain ⟨short, y, mo, d, h', mi, s, us, ln, a1, a2, a3, a4, a5, a6, a7, a8, a9, -⟩ := C61_partial pre 1#64 t file line level ht hline hlevel ht'
        refine ⟨short, y, mo, d, h', mi, s, us, ln, a1, a2, a3, a4, a5, a6, a7, a8, a9, ?_⟩
        rw [C61_no_time_flag pre flag _ _ _ _ h1]
        simp only [Bool.or_eq_false_iff] at h h1
        obtain ⟨⟨e0, e1⟩, e2⟩ := h1
        obtain ⟨⟨e3, e4⟩, e5⟩ := h
        simp only [headerText]
        rw [e0, e1, e2, e3, e4, e5]
        simp

/-- Flags of both kinds: the default ones, and the level alone. -/
example : ((51#64 : BitVec 64).getLsbD 0 || (51#64 : BitVec 64).getLsbD 1 || (51#64 : BitVec 64).getLsbD 2) = true ∧
    ((32#64 : BitVec 64).getLsbD 3 || (32#64 : BitVec 64).getLsbD 4 || (32#64 : BitVec 64).getLsbD 5) = true := by decide

end Zinx.Props
