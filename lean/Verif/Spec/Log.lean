import Verif.Model.Basic

/-!
# What a log line should look like

This file does not refer to the model of the logger.
-/

namespace Zinx.Log

def isDigit (b : UInt8) : Prop := 48 ≤ b.toNat ∧ b.toNat ≤ 57

/-- The number a string of decimal digits stands for. -/
def decVal (s : Bytes) : Nat := s.foldl (fun a b => 10 * a + (b.toNat - 48)) 0

/-- `s` is the decimal for `n`, padded with zeros to at least `w` digits and not further. -/
structure IsDec (w n : Nat) (s : Bytes) : Prop where
  digits : ∀ b ∈ s, isDigit b
  value : decVal s = n
  nonempty : s ≠ []
  width : w ≤ s.length
  tight : s.length > w → s.length > 1 → s.head? ≠ some 48

/-- `r` is the last element of the path: what follows the last '/' that is not the first byte, or all of it. -/
def IsShort (file r : Bytes) : Prop :=
  (∃ a, a ≠ [] ∧ file = a ++ 47 :: r ∧ (47 : UInt8) ∉ r) ∨ (r = file ∧ ∀ a b, file = a ++ 47 :: b → a = [])

end Zinx.Log
