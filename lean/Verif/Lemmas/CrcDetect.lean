import Verif.Lemmas.Crc

/-! Error detection by the checksum, at the level of bits. -/

namespace Zinx.Crc

open Zinx Zinx.Spec

def bit16 (b : Bool) : BitVec 16 := if b then 1#16 else 0#16

/-- Feed one bit. -/
def crcBit (c : BitVec 16) (b : Bool) : BitVec 16 := crcShift (c ^^^ bit16 b)

def foldBits (c : BitVec 16) (bs : List Bool) : BitVec 16 := bs.foldl crcBit c

theorem foldBits_append (c : BitVec 16) (xs ys : List Bool) : foldBits c (xs ++ ys) = foldBits (foldBits c xs) ys := by
  simp [foldBits]

theorem foldBits_cons (c : BitVec 16) (b : Bool) (ys : List Bool) : foldBits c (b :: ys) = foldBits (crcBit c b) ys := rfl

theorem foldBits_init (c : BitVec 16) (bs : List Bool) : foldBits c bs = crcShifts bs.length c ^^^ foldBits 0#16 bs := by
  induction bs generalizing c with
  | nil => simp [foldBits, crcShifts]
  | cons b bs ih =>
    rw [foldBits_cons, foldBits_cons, ih (crcBit c b), ih (crcBit 0#16 b)]
    unfold crcBit
    rw [crcShift_xor c, BitVec.zero_xor, crcShifts_xor, List.length_cons, crcShifts, BitVec.xor_assoc]

theorem bit16_xor (a b : Bool) : bit16 (a ^^ b) = bit16 a ^^^ bit16 b := by
  cases a <;> cases b <;> decide

theorem foldBits_zip (xs : List Bool) : ∀ (ys : List Bool), xs.length = ys.length → ∀ c c',
    foldBits (c ^^^ c') (List.zipWith xor xs ys) = foldBits c xs ^^^ foldBits c' ys := by
  induction xs with
  | nil => intro ys h c c'; cases ys with
    | nil => rfl
    | cons _ _ => simp at h
  | cons x xs ih =>
    intro ys h c c'
    cases ys with
    | nil => simp at h
    | cons y ys =>
      simp only [List.zipWith_cons_cons, foldBits_cons]
      rw [← ih ys (by simpa using h)]
      congr 1
      unfold crcBit
      rw [← crcShift_xor, bit16_xor]
      congr 1
      ac_rfl

/-- Two bit strings of equal length give the same register iff their difference gives zero from zero. -/
theorem foldBits_eq_iff {xs ys : List Bool} (h : xs.length = ys.length) (c : BitVec 16) :
    foldBits c xs = foldBits c ys ↔ foldBits 0#16 (List.zipWith xor xs ys) = 0#16 := by
  have := foldBits_zip xs ys h c c
  rw [BitVec.xor_self] at this
  rw [this, xor_eq_zero_iff]

theorem foldBits_zeros (n : Nat) (c : BitVec 16) : foldBits c (List.replicate n false) = crcShifts n c := by
  induction n generalizing c with
  | zero => rfl
  | succ n ih =>
    rw [List.replicate_succ, foldBits_cons, ih]
    simp [crcBit, bit16, crcShifts]

/-! ## Bytes and bits -/

def bits8 (b : UInt8) : List Bool := (List.range 8).map fun i => b.toBitVec.getLsbD i

theorem foldBits_byte0 (b : UInt8) : foldBits 0#16 (bits8 b) = crcShifts 8 (b.toBitVec.setWidth 16) := by
  have h : ∀ i : Fin 256, foldBits 0#16 (bits8 (UInt8.ofFin i)) = crcShifts 8 ((UInt8.ofFin i).toBitVec.setWidth 16) := by
    decide +kernel
  exact h b.toFin

theorem crcByte_bits (c : BitVec 16) (b : UInt8) : crcByte c b = foldBits c (bits8 b) := by
  rw [foldBits_init, foldBits_byte0, crcByte, crcShifts_xor]
  rfl

theorem crcModbus_bits (s : Bytes) : crcModbus s = foldBits 0xFFFF#16 (bitsOf s) := by
  unfold crcModbus
  generalize 0xFFFF#16 = c
  induction s generalizing c with
  | nil => rfl
  | cons b s ih =>
    rw [List.foldl_cons, ih, crcByte_bits]
    have : bitsOf (b :: s) = bits8 b ++ bitsOf s := by simp [bitsOf, bits8]
    rw [this, foldBits_append]

theorem bitsOf_length (s : Bytes) : (bitsOf s).length = 8 * s.length := by
  induction s with
  | nil => rfl
  | cons b s ih =>
    have : bitsOf (b :: s) = bits8 b ++ bitsOf s := by simp [bitsOf, bits8]
    rw [this, List.length_append, ih]
    simp [bits8]; omega

theorem bitsOf_append (a b : Bytes) : bitsOf (a ++ b) = bitsOf a ++ bitsOf b := by simp [bitsOf]

theorem bits8_inj {a b : UInt8} (h : bits8 a = bits8 b) : a = b := by
  apply UInt8.toBitVec_inj.1
  apply BitVec.eq_of_getLsbD_eq
  intro i hi
  have := congrArg (fun l : List Bool => l[i]?) h
  simpa [bits8, hi] using this

theorem bitsOf_inj {a : Bytes} : ∀ {b : Bytes}, bitsOf a = bitsOf b → a = b := by
  induction a with
  | nil =>
    intro b h
    have := congrArg List.length h
    rw [bitsOf_length, bitsOf_length] at this
    cases b with
    | nil => rfl
    | cons _ _ => simp at this
  | cons x a ih =>
    intro b h
    cases b with
    | nil =>
      have := congrArg List.length h
      rw [bitsOf_length, bitsOf_length] at this
      simp at this
    | cons y b =>
      have e : ∀ (z : UInt8) s, bitsOf (z :: s) = bits8 z ++ bitsOf s := by intro z s; simp [bitsOf, bits8]
      rw [e, e] at h
      have hl : (bits8 x).length = (bits8 y).length := by simp [bits8]
      obtain ⟨h1, h2⟩ := List.append_inj h hl
      rw [bits8_inj h1, ih h2]

/-! ## Residue: a frame is accepted iff the register over data and checksum is zero -/

theorem crc_two (c : BitVec 16) (x y : UInt8) : crcByte (crcByte c x) y = crcShifts 16 (c ^^^ reg y x) := by
  unfold crcByte reg
  rw [show ∀ v, crcShifts 16 v = crcShifts 8 (crcShifts 8 v) from fun v => crcShifts_add 8 8 v]
  congr 1
  have h1 := crcShifts_high y.toBitVec
  have h2 : c ^^^ (y.toBitVec.setWidth 16 <<< 8 ^^^ x.toBitVec.setWidth 16) =
      (c ^^^ x.toBitVec.setWidth 16) ^^^ y.toBitVec.setWidth 16 <<< 8 := by ac_rfl
  rw [h2, crcShifts_xor 8 (c ^^^ _), h1]

theorem reg_trailer (c : BitVec 16) :
    reg (UInt8.ofBitVec ((c >>> 8).setWidth 8)) (UInt8.ofBitVec (c.setWidth 8)) = c := by
  unfold reg
  apply BitVec.eq_of_getLsbD_eq
  intro i hi
  by_cases h8 : i < 8
  · simp [h8, hi]
  · have h1 : i - 8 < 8 := by omega
    have h2 : i - 8 < 16 := by omega
    have h3 : 8 + (i - 8) = i := by omega
    simp [h8, hi, h1, h2, h3]

theorem checkCRC_iff (s : Bytes) (x y : UInt8) : checkCRC s [x, y] = true ↔ crcModbus (s ++ [x, y]) = 0#16 := by
  unfold checkCRC
  rw [getCrC_eq]
  have hfold : crcModbus (s ++ [x, y]) = crcShifts 16 (crcModbus s ^^^ reg y x) := by
    rw [← crc_two]; simp [crcModbus]
  rw [hfold]
  constructor
  · intro h
    simp only [crcTrailer, isComplete, Bool.and_eq_true, beq_iff_eq] at h
    rw [← h.1, ← h.2, reg_trailer, BitVec.xor_self, crcShifts_zero]
  · intro h
    have := xor_eq_zero_iff.1 (crcShifts_eq_zero h)
    simp [crcTrailer, isComplete, this, reg_low, reg_high]

/-! ## Bursts -/

def pack : List Bool → BitVec 16
  | [] => 0#16
  | b :: bs => bit16 b ^^^ (pack bs <<< 1)

theorem pack_high (w : List Bool) : ∀ i, w.length ≤ i → (pack w).getLsbD i = false := by
  induction w with
  | nil => intro i _; simp [pack]
  | cons b w ih =>
    intro i hi
    simp only [List.length_cons] at hi
    obtain ⟨j, rfl⟩ : ∃ j, i = j + 1 := ⟨i - 1, by omega⟩
    have h1 : (bit16 b).getLsbD (j + 1) = false := by cases b <;> simp [bit16]
    simp [pack, BitVec.getLsbD_xor, h1, ih j (by omega)]

theorem crcShift_shl {x : BitVec 16} (h : x.getLsbD 15 = false) : crcShift (x <<< 1) = x := by
  rw [crcShift_eq]
  have h0 : (x <<< 1).getLsbD 0 = false := by simp
  rw [h0]
  apply BitVec.eq_of_getLsbD_eq
  intro i hi
  by_cases h15 : i = 15
  · subst h15
    simp only [BitVec.getLsbD_eq_getElem (show 15 < 16 by decide)] at h
    simp [h]
  · have : i + 1 < 16 := by omega
    simp [Nat.add_comm 1 i]
    intro hh; omega

theorem foldBits_pack (w : List Bool) (h : w.length ≤ 16) : foldBits 0#16 w = crcShifts w.length (pack w) := by
  induction w with
  | nil => rfl
  | cons b w ih =>
    simp only [List.length_cons] at h
    rw [foldBits_cons, foldBits_init, ih (by omega), List.length_cons, crcShifts, pack, crcShift_xor, crcShifts_xor,
      crcShift_shl (pack_high w 15 (by omega))]
    simp [crcBit]

theorem pack_eq_zero (w : List Bool) (h : w.length ≤ 16) (h0 : pack w = 0#16) : ∀ b ∈ w, b = false := by
  induction w with
  | nil => simp
  | cons b w ih =>
    simp only [List.length_cons] at h
    have hb : b = false := by
      have := congrArg (fun v : BitVec 16 => v.getLsbD 0) h0
      simp [pack] at this
      cases b with
      | false => rfl
      | true => simp [bit16] at this
    have hw : pack w = 0#16 := by
      subst hb
      simp only [pack, bit16, Bool.false_eq_true, if_false, BitVec.zero_xor] at h0
      have := crcShift_shl (pack_high w 15 (by omega))
      rw [h0, crcShift_zero] at this
      exact this.symm
    intro x hx
    rcases List.mem_cons.1 hx with rfl | hx
    · exact hb
    · exact ih (by omega) hw x hx

theorem zipWith_xor_self (l : List Bool) : List.zipWith xor l l = List.replicate l.length false := by
  induction l with
  | nil => rfl
  | cons b l ih => rw [List.zipWith_cons_cons, ih, List.length_cons, List.replicate_succ, Bool.xor_self]

theorem eq_of_zip_false {a b : List Bool} (hl : a.length = b.length) (h : ∀ x ∈ List.zipWith xor a b, x = false) : a = b := by
  induction a generalizing b with
  | nil => cases b with
    | nil => rfl
    | cons _ _ => simp at hl
  | cons x a ih =>
    cases b with
    | nil => simp at hl
    | cons y b =>
      simp only [List.zipWith_cons_cons, List.mem_cons, forall_eq_or_imp] at h
      have : x = y := by cases x <;> cases y <;> simp_all
      rw [this, ih (by simpa using hl) h.2]

theorem foldBits_left_inj {c c' : BitVec 16} {r : List Bool} : foldBits c r = foldBits c' r ↔ c = c' := by
  constructor
  · intro h
    rw [foldBits_init, foldBits_init c'] at h
    have h2 := xor_eq_zero_iff.2 h
    have : crcShifts r.length c ^^^ foldBits 0#16 r ^^^ (crcShifts r.length c' ^^^ foldBits 0#16 r) =
        crcShifts r.length c ^^^ crcShifts r.length c' := by
      rw [show ∀ a b d : BitVec 16, a ^^^ b ^^^ (d ^^^ b) = (a ^^^ d) ^^^ (b ^^^ b) by intros; ac_rfl]
      rw [BitVec.xor_self, BitVec.xor_zero]
    rw [this] at h2
    exact crcShifts_inj.1 (xor_eq_zero_iff.1 h2)
  · rintro rfl; rfl

/-- A difference confined to at most sixteen consecutive bits changes the register. -/
theorem burst_detected (p w w' r : List Bool) (hl : w.length = w'.length) (h16 : w.length ≤ 16) (hne : w ≠ w')
    (c : BitVec 16) : foldBits c (p ++ w ++ r) ≠ foldBits c (p ++ w' ++ r) := by
  intro h
  rw [foldBits_append, foldBits_append, foldBits_append, foldBits_append, foldBits_left_inj, foldBits_eq_iff hl] at h
  have hzl : (List.zipWith xor w w').length = w.length := by rw [List.length_zipWith]; omega
  rw [foldBits_pack _ (by omega)] at h
  exact hne (eq_of_zip_false hl (pack_eq_zero _ (by omega) (crcShifts_eq_zero h)))

/-! ## Parity -/

def parity (c : BitVec 16) : Bool := (List.range 16).foldl (fun a i => a ^^ c.getLsbD i) false

theorem foldl_xor_xor (l : List Nat) (f g : Nat → Bool) (a b : Bool) :
    l.foldl (fun a i => a ^^ (f i ^^ g i)) (a ^^ b) =
      (l.foldl (fun a i => a ^^ f i) a ^^ l.foldl (fun a i => a ^^ g i) b) := by
  induction l generalizing a b with
  | nil => rfl
  | cons i l ih =>
    simp only [List.foldl_cons]
    rw [← ih]
    congr 1
    cases a <;> cases b <;> cases f i <;> cases g i <;> rfl

theorem parity_xor (x y : BitVec 16) : parity (x ^^^ y) = (parity x ^^ parity y) := by
  have := foldl_xor_xor (List.range 16) (fun i => x.getLsbD i) (fun i => y.getLsbD i) false false
  simp only [parity, BitVec.getLsbD_xor]
  exact this

theorem parity_shr (x : BitVec 16) : parity (x >>> 1) = (parity x ^^ x.getLsbD 0) := by
  have h : x.getLsbD 16 = false := BitVec.getLsbD_of_ge _ _ (by omega)
  have hr : List.range 16 = [0, 1, 2, 3, 4, 5, 6, 7, 8, 9, 10, 11, 12, 13, 14, 15] := by decide
  simp only [parity, hr, List.foldl_cons, List.foldl_nil, BitVec.getLsbD_ushiftRight]
  simp only [Nat.reduceAdd, h]
  generalize x.getLsbD 0 = a
  simp only [Bool.false_xor, Bool.xor_false]
  cases a <;> simp

theorem parity_shift (x : BitVec 16) : parity (crcShift x) = parity x := by
  rw [crcShift_eq, parity_xor, parity_shr]
  cases x.getLsbD 0
  · have : parity 0#16 = false := by decide
    simp [this]
  · have : parity 0xA001#16 = true := by decide
    simp [this]

theorem parity_foldBits (c : BitVec 16) (bs : List Bool) :
    parity (foldBits c bs) = (parity c ^^ bs.foldl xor false) := by
  have hacc : ∀ (l : List Bool) (a : Bool), l.foldl xor a = (a ^^ l.foldl xor false) := by
    intro l
    induction l with
    | nil => simp
    | cons b l ih => intro a; rw [List.foldl_cons, List.foldl_cons, ih, ih (false ^^ b)]; simp
  induction bs generalizing c with
  | nil => simp [foldBits]
  | cons b bs ih =>
    rw [foldBits_cons, ih, List.foldl_cons, hacc bs (false ^^ b)]
    have : parity (crcBit c b) = (parity c ^^ b) := by
      unfold crcBit
      rw [parity_shift, parity_xor]
      cases b
      · have : parity (bit16 false) = false := by decide
        rw [this]
      · have : parity (bit16 true) = true := by decide
        rw [this]
    rw [this]; simp

/-- The number of positions in which two bit strings differ. -/
def diffCount (a b : List Bool) : Nat := (List.zipWith xor a b).count true

theorem foldl_xor_count (l : List Bool) : l.foldl xor false = (l.count true % 2 == 1) := by
  have : ∀ (l : List Bool) (a : Bool), l.foldl xor a = (a ^^ (l.count true % 2 == 1)) := by
    intro l
    induction l with
    | nil => simp
    | cons b l ih =>
      intro a
      rw [List.foldl_cons, ih]
      cases b
      · simp
      · rw [List.count_cons_self]
        have : (List.count true l + 1) % 2 = 1 - List.count true l % 2 := by omega
        rw [this]
        rcases Nat.mod_two_eq_zero_or_one (List.count true l) with h | h <;> simp [h]
  simpa using this l false

/-- An odd number of differing bits changes the register. -/
theorem odd_detected {a b : List Bool} (hl : a.length = b.length) (hodd : diffCount a b % 2 = 1) (c : BitVec 16) :
    foldBits c a ≠ foldBits c b := by
  intro h
  rw [foldBits_eq_iff hl] at h
  have := parity_foldBits 0#16 (List.zipWith xor a b)
  rw [h, foldl_xor_count] at this
  unfold diffCount at hodd
  rw [hodd] at this
  exact absurd this (by decide)

/-! ## Two bits -/

/-- Check that the register started at `c` does not return to 1 in the next `2 ^ k` shifts; result: check and register. -/
def chk : Nat → BitVec 16 → Bool × BitVec 16
  | 0, c => (crcShift c != 1#16, crcShift c)
  | k + 1, c =>
    let (b, c') := chk k c
    let (b', c'') := chk k c'
    (b && b', c'')

theorem chk_spec (k : Nat) : ∀ c, (chk k c).2 = crcShifts (2 ^ k) c ∧
    ((chk k c).1 = true → ∀ i, 1 ≤ i → i ≤ 2 ^ k → crcShifts i c ≠ 1#16) := by
  induction k with
  | zero =>
    intro c
    refine ⟨rfl, ?_⟩
    intro h i h1 h2
    have : i = 1 := by simp at h2; omega
    subst this
    simpa [chk, crcShifts] using h
  | succ k ih =>
    intro c
    obtain ⟨e1, c1⟩ := ih c
    obtain ⟨e2, c2⟩ := ih (chk k c).2
    have hp : 2 ^ (k + 1) = 2 ^ k + 2 ^ k := by rw [Nat.pow_succ]; omega
    constructor
    · simp only [chk]
      rw [e2, e1, hp, crcShifts_add]
    · intro h i h1 h2
      simp only [chk, Bool.and_eq_true] at h
      by_cases hi : i ≤ 2 ^ k
      · exact c1 h.1 i h1 hi
      · have : i = 2 ^ k + (i - 2 ^ k) := by omega
        rw [this, crcShifts_add, ← e1]
        exact c2 h.2 _ (by omega) (by omega)

/-- The register started at 1 does not return to 1 within 2^14 shifts (its period is 32767). -/
theorem chk_one : (chk 14 1#16).1 = true := by decide +kernel

/-- Two flipped bits less than 2^14 positions apart change the register. -/
theorem two_detected (p q r : List Bool) (x y : Bool) (hq : q.length < 2 ^ 14) (c : BitVec 16) :
    foldBits c (p ++ x :: (q ++ y :: r)) ≠ foldBits c (p ++ (!x) :: (q ++ (!y) :: r)) := by
  intro h
  rw [foldBits_append, foldBits_append, foldBits_cons, foldBits_cons, foldBits_append, foldBits_append, foldBits_cons,
    foldBits_cons, foldBits_left_inj] at h
  generalize foldBits c p = c at h
  have h2 := crcShifts_inj (n := 1) |>.1 (show crcShifts 1 _ = crcShifts 1 _ from h)
  have hx : ∀ b : Bool, bit16 (!b) = bit16 b ^^^ 1#16 := by decide
  rw [hx y] at h2
  have h3 : crcBit c (!x) = crcBit c x ^^^ crcShift 1#16 := by
    unfold crcBit
    rw [hx x, ← crcShift_xor]
    congr 1
    ac_rfl
  rw [h3, foldBits_init, foldBits_init (crcBit c x ^^^ _), crcShifts_xor] at h2
  have h4 : crcShifts q.length (crcShift 1#16) = 1#16 := by
    apply xor_eq_zero_iff.1
    have := xor_eq_zero_iff.2 h2
    rw [← this]
    generalize crcShifts q.length (crcBit c x) = u
    generalize crcShifts q.length (crcShift 1#16) = v
    generalize foldBits 0#16 q = w
    generalize bit16 y = z
    apply BitVec.eq_of_getLsbD_eq
    intro i _
    simp only [BitVec.getLsbD_xor]
    generalize u.getLsbD i = a1
    generalize v.getLsbD i = a2
    generalize w.getLsbD i = a3
    generalize z.getLsbD i = a4
    generalize (1#16).getLsbD i = a5
    revert a1 a2 a3 a4 a5
    decide
  exact (chk_spec 14 1#16).2 chk_one (q.length + 1) (by omega) (by omega) h4

end Zinx.Crc
