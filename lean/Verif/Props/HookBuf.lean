import Verif.Model.HookBuf

/-!
# C104: what a log hook was given, when it looks at it later
-/

namespace Zinx.Props

open Zinx.HookBuf

/-- The current array exists and has what is in use. -/
def GoodBuf (b : Buf) : Prop := b.cur < b.arrays.length ∧ b.len ≤ ((b.arrays[b.cur]?).getD []).length

theorem write_read (b : Buf) (h : GoodBuf b) (d : Bytes) (n : Nat) : GoodBuf (b.write d n) ∧ (b.write d n).read (b.write d n).bytes = b.read b.bytes ++ d := by
  obtain ⟨h1, h2⟩ := h
  simp only [List.getElem?_eq_getElem h1, Option.getD_some] at h2
  unfold Buf.write
  simp only [List.getElem?_eq_getElem h1, Option.getD_some]
  split
  · rename_i hc
    have hset : (b.arrays.set b.cur (put b.arrays[b.cur] b.len d))[b.cur]? = some (put b.arrays[b.cur] b.len d) := by simp [h1]
    simp only [GoodBuf, Buf.read, Buf.bytes, List.length_set, hset, Option.getD_some, List.getElem?_eq_getElem h1]
    refine ⟨⟨h1, ?_⟩, ?_⟩
    · simp [put]; omega
    · have e : (b.arrays[b.cur].take b.len ++ d).length = b.len + d.length := by simp; omega
      rw [put, ← e]; exact List.take_left' rfl
  · rename_i hc
    have e : (b.arrays[b.cur].take b.len ++ d).length = b.len + d.length := by simp; omega
    refine ⟨⟨by simp, by simp; omega⟩, ?_⟩
    simp only [Buf.read, Buf.bytes, List.getElem?_eq_getElem h1, Option.getD_some]
    simp only [List.getElem?_append_right (Nat.le_refl _), Nat.sub_self, List.getElem?_cons_zero, Option.getD_some]
    rw [← e]; exact List.take_left' rfl

theorem writes_read (parts : List (Bytes × Nat)) (b : Buf) (h : GoodBuf b) :
    GoodBuf (b.writes parts) ∧ (b.writes parts).read (b.writes parts).bytes = b.read b.bytes ++ (parts.map (·.1)).flatten := by
  induction parts generalizing b with
  | nil => exact ⟨h, by simp [Buf.writes]⟩
  | cons p ps ih =>
    obtain ⟨d, n⟩ := p
    obtain ⟨h1, h2⟩ := write_read b h d n
    obtain ⟨h3, h4⟩ := ih _ h1
    exact ⟨h3, by simp only [Buf.writes]; rw [h4, h2]; simp⟩

theorem reset_good (b : Buf) (h : GoodBuf b) : GoodBuf b.reset := ⟨h.1, Nat.zero_le _⟩

/-- While a line is being passed on, file and hook see exactly its parts, whatever lines went before. -/
theorem C104_given (b : Buf) (h : GoodBuf b) (parts : List (Bytes × Nat)) :
    GoodBuf (b.output parts) ∧ (b.output parts).read (b.output parts).bytes = (parts.map (·.1)).flatten := by
  obtain ⟨h1, h2⟩ := writes_read parts _ (reset_good b h)
  exact ⟨h1, by simpa [Buf.output, Buf.read, Buf.bytes, Buf.reset] using h2⟩

/-- A write that finds room changes the current array only, and there only the part it writes. -/
theorem write_kept (b : Buf) (d : Bytes) (n : Nat) (x : Slice) (hx : x.array < b.arrays.length) (hne : x.array ≠ b.cur) : (b.write d n).read x = b.read x ∧ x.array < (b.write d n).arrays.length := by
  unfold Buf.write
  simp only
  split
  · simp only [Buf.read, List.length_set, List.getElem?_set_ne (Ne.symm hne)]
    exact ⟨trivial, hx⟩
  · simp only [Buf.read, List.getElem?_append_left hx]
    exact ⟨trivial, by simp; omega⟩

theorem write_cur (b : Buf) (d : Bytes) (n : Nat) : (b.write d n).cur = b.cur ∨ (b.write d n).cur = b.arrays.length := by
  unfold Buf.write
  simp only
  split
  · exact .inl rfl
  · exact .inr rfl

/-- A kept slice of an array that is no longer the current one never changes again. -/
theorem old_kept (parts : List (Bytes × Nat)) (b : Buf) (x : Slice) (hx : x.array < b.arrays.length) (hne : x.array ≠ b.cur) :
    (b.writes parts).read x = b.read x ∧ x.array < (b.writes parts).arrays.length ∧ x.array ≠ (b.writes parts).cur := by
  induction parts generalizing b with
  | nil => exact ⟨rfl, hx, hne⟩
  | cons p ps ih =>
    obtain ⟨d, n⟩ := p
    obtain ⟨h1, h2⟩ := write_kept b d n x hx hne
    have h3 : x.array ≠ (b.write d n).cur := by
      rcases write_cur b d n with e | e <;> rw [e]
      · exact hne
      · omega
    obtain ⟨h4, h5⟩ := ih _ h2 h3
    exact ⟨h4.trans h1, h5⟩

/-- What becomes of the line a hook has kept (the slice `x` of the line just passed on) when the next line is logged: if the next line fits in the array, its bytes stand in the place of the first ones of the kept
line, as many as it has. -/
theorem C104_exact (b : Buf) (h : GoodBuf b) (parts : List (Bytes × Nat)) (hf : (parts.map (·.1)).flatten.length ≤ ((b.arrays[b.cur]?).getD []).length) :
    (b.output parts).read b.bytes = (((parts.map (·.1)).flatten ++ (b.read b.bytes).drop (parts.map (·.1)).flatten.length)).take b.len := by
  have key : ∀ (parts : List (Bytes × Nat)) (c : Buf), GoodBuf c → c.len + (parts.map (·.1)).flatten.length ≤ ((c.arrays[c.cur]?).getD []).length →
      (c.writes parts).arrays[c.cur]? = some (put ((c.arrays[c.cur]?).getD []) c.len (parts.map (·.1)).flatten) := by
    intro parts
    induction parts with
    | nil =>
      intro c hc _
      simp [Buf.writes, put, List.getElem?_eq_getElem hc.1]
    | cons p ps ih =>
      intro c hc hl
      obtain ⟨d, n⟩ := p
      simp only [List.map_cons, List.flatten_cons, List.length_append] at hl ⊢
      have hg := (write_read c hc d n).1
      have e : c.write d n = { c with arrays := c.arrays.set c.cur (put ((c.arrays[c.cur]?).getD []) c.len d), len := c.len + d.length } := by
        unfold Buf.write; simp only; rw [if_pos (by omega)]
      have hcur : (c.write d n).cur = c.cur := by rw [e]
      have hlen : (c.write d n).len = c.len + d.length := by rw [e]
      have harr : ((c.write d n).arrays[c.cur]?).getD [] = put ((c.arrays[c.cur]?).getD []) c.len d := by
        rw [e]; simp [hc.1]
      have := ih (c.write d n) hg (by
        rw [hcur, hlen, harr]; simp only [put, List.length_append, List.length_take, List.length_drop]; have := hc.2; omega)
      rw [hcur, hlen, harr] at this
      simp only [Buf.writes]
      rw [this]
      congr 1
      have hc2 := hc.2
      apply List.ext_getElem?
      intro k
      simp only [put, List.getElem?_append, List.length_append, List.length_take, List.getElem?_take, List.getElem?_drop, List.length_drop]
      grind
  have := key parts b.reset (reset_good b h) (by simpa [Buf.reset] using hf)
  simp only [Buf.read, Buf.bytes, Buf.output]
  have hcur : b.reset.cur = b.cur := rfl
  rw [hcur] at this
  rw [this]
  have h2 := h.2
  simp only [Buf.reset, put, Option.getD_some, List.take_zero, List.nil_append, Nat.zero_add]
  apply List.ext_getElem?
  intro k
  simp only [List.getElem?_append, List.getElem?_take, List.getElem?_drop]
  grind

/-- "hello", then "hi": the kept line reads "hillo". -/
example : ∃ b : Buf, GoodBuf b ∧ b.read b.bytes = [104, 101, 108, 108, 111] ∧ (b.output [([104, 105], 0)]).read b.bytes = [104, 105, 108, 108, 111] :=
  ⟨⟨[[104, 101, 108, 108, 111]], 0, 5⟩, by unfold GoodBuf; decide +kernel, by decide +kernel, by decide +kernel⟩

/-- If the hook keeps a copy, it stays (`b.read b.bytes` is a value). If it keeps the slice, what it reads there stays what it was until the next line, and for ever once a line has moved to a larger array. -/
theorem C104_partial (b : Buf) (parts : List (Bytes × Nat)) (x : Slice) (hx : x.array < b.arrays.length) (hne : x.array ≠ b.cur) : (b.output parts).read x = b.read x :=
  (old_kept parts b.reset x hx hne).1

/-- After "one\n" and "two\n" the hook finds "two\n" in what it kept of the first call. -/
theorem C104_refuted : ∃ b : Buf, GoodBuf b ∧ ∃ p q, (b.output p).read (b.output p).bytes = [111, 110, 101, 10] ∧ ((b.output p).output q).read (b.output p).bytes = [116, 119, 111, 10] :=
  ⟨⟨[List.replicate 64 0], 0, 0⟩, by unfold GoodBuf; decide +kernel, [([111, 110, 101], 0), ([10], 0)], [([116, 119, 111], 0), ([10], 0)], by decide +kernel, by decide +kernel⟩

/-- The hypotheses of `C104_partial` can be met: a first short line, then one that needs a larger array. -/
example : ∃ b : Buf, GoodBuf b ∧ b.bytes.array < (b.output [(List.replicate 5 7, 3)]).arrays.length ∧ b.bytes.array ≠ (b.output [(List.replicate 5 7, 3)]).cur :=
  ⟨⟨[[1, 2]], 0, 2⟩, by unfold GoodBuf; decide +kernel, by decide +kernel, by decide +kernel⟩

end Zinx.Props
