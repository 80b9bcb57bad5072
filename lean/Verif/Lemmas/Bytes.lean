import Verif.Model.Frame
import Verif.Spec.Frame

namespace Zinx

open Zinx.Frame Zinx.Spec

theorem wrap64_of_range {x : Int} (h1 : -2 ^ 63 ≤ x) (h2 : x < 2 ^ 63) : wrap64 x = x := by
  unfold wrap64
  have := Int.bmod_def x (2 ^ 64)
  omega

theorem wrap64_add_wrap64 (x y : Int) : wrap64 (x + wrap64 y) = wrap64 (x + y) := by
  unfold wrap64
  simp

theorem wrap64_range (x : Int) : -2 ^ 63 ≤ wrap64 x ∧ wrap64 x < 2 ^ 63 := by
  unfold wrap64
  have := Int.bmod_def x (2 ^ 64)
  omega

theorem toU64_of_nonneg {x : Int} (h1 : 0 ≤ x) (h2 : x < 2 ^ 63) : toU64 x = x.toNat := by
  unfold toU64
  omega

theorem toU64_of_neg {x : Int} (h1 : x < 0) (h2 : -2 ^ 63 ≤ x) : toU64 x = (x + 2 ^ 64).toNat := by
  unfold toU64
  omega

theorem leValue_eq (s : Bytes) : s.foldr (fun b acc => b.toNat + 256 * acc) 0 = leValue s := by
  induction s with
  | nil => rfl
  | cons b bs ih => simp [leValue, ih]

theorem beValue_foldl (s : Bytes) (a : Nat) :
    s.foldl (fun acc b => acc * 256 + b.toNat) a = a * 256 ^ s.length + beValue s := by
  induction s generalizing a with
  | nil => simp [beValue]
  | cons b bs ih =>
    simp only [List.foldl_cons, ih, beValue, List.length_cons, Nat.pow_succ]
    rw [Nat.add_mul, Nat.add_assoc, Nat.mul_assoc, Nat.mul_comm 256]

theorem binaryUint_eq (o : Order) (s : Bytes) : binaryUint o s = uintValue o s := by
  cases o
  · simp [binaryUint, uintValue, beValue_foldl]
  · simp [binaryUint, uintValue, leValue_eq]

theorem beValue_lt (s : Bytes) : beValue s < 256 ^ s.length := by
  induction s with
  | nil => simp [beValue]
  | cons b bs ih =>
    simp only [beValue, List.length_cons, Nat.pow_succ]
    have hb : b.toNat < 256 := b.toNat_lt
    calc b.toNat * 256 ^ bs.length + beValue bs
        < b.toNat * 256 ^ bs.length + 256 ^ bs.length := by omega
      _ = (b.toNat + 1) * 256 ^ bs.length := by rw [Nat.add_mul, Nat.one_mul]
      _ ≤ 256 * 256 ^ bs.length := Nat.mul_le_mul_right _ (by omega)
      _ = 256 ^ bs.length * 256 := Nat.mul_comm _ _

theorem leValue_lt (s : Bytes) : leValue s < 256 ^ s.length := by
  induction s with
  | nil => simp [leValue]
  | cons b bs ih =>
    simp only [leValue, List.length_cons, Nat.pow_succ]
    have hb : b.toNat < 256 := b.toNat_lt
    omega

theorem uintValue_lt (o : Order) (s : Bytes) : uintValue o s < 256 ^ s.length := by
  cases o
  · exact beValue_lt s
  · exact leValue_lt s

theorem or_shift3 (a b c : Nat) (ha : a < 256) (hb : b < 256) :
    (a ||| b <<< 8 ||| c <<< 16) = a + b * 256 + c * 65536 := by
  have h1 : a ||| b <<< 8 = b * 256 + a := by
    rw [Nat.or_comm, ← Nat.shiftLeft_add_eq_or_of_lt (by simpa using ha), Nat.shiftLeft_eq]
  rw [h1, Nat.or_comm, ← Nat.shiftLeft_add_eq_or_of_lt (by omega), Nat.shiftLeft_eq]
  omega

end Zinx
