import Verif.Spec.Pbkdf2

/-
Keys that PBKDF2 derives from one password and one salt with different iteration counts.
-/

namespace Spec.Pbkdf2
open Spec

/-- Octets `32 * i` to `32 * i + 31` of a derived key. -/
def part (i : Nat) (key : List Byte) : List Byte := (key.drop (32 * i)).take 32

/-- HMAC-SHA256 of HMAC-SHA256 of ... of `u`, `n` times, with one key. -/
def again (password : List Byte) : Nat → List Byte → List Byte
  | 0, u => u
  | n + 1, u => hmacSha256 password (again password n u)

end Spec.Pbkdf2
