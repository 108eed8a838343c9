import Verif.Spec.Hmac

/-
PBKDF2, written from RFC 2898 section 5.2, for a pseudorandom function with 32-byte output.
-/

namespace Spec

/-- Bytewise exclusive or of two strings of equal length. -/
def xorBytes (a b : List Byte) : List Byte := List.zipWith (· ^^^ ·) a b

namespace Pbkdf2

/-- `U_{j+1}` for block index `i`. -/
def U (prf : List Byte → List Byte → List Byte) (P S : List Byte) (i : Nat) : Nat → List Byte
  | 0 => prf P (S ++ beBytes 4 i)
  | j + 1 => prf P (U prf P S i j)

/-- `F (P, S, c, i) = U_1 xor U_2 xor ... xor U_c`, for `c ≥ 1`. -/
def F (prf : List Byte → List Byte → List Byte) (P S : List Byte) (c i : Nat) : List Byte :=
  (List.range (c - 1)).foldl (fun acc j => xorBytes acc (U prf P S i (j + 1))) (U prf P S i 0)

/-- `T_1 || T_2 || ... || T_l` -/
def stream (prf : List Byte → List Byte → List Byte) (P S : List Byte) (c l : Nat) : List Byte :=
  (List.range l).flatMap fun i => F prf P S c (i + 1)

/-- The derived key of `dkLen` bytes. (RFC 2898 restricts `dkLen` to `(2^32 - 1) * 32`; `INT (i)` is 4 bytes long.) -/
def pbkdf2 (prf : List Byte → List Byte → List Byte) (P S : List Byte) (c dkLen : Nat) : List Byte :=
  (stream prf P S c ((dkLen + 31) / 32)).take dkLen

def pbkdf2HmacSha256 (P S : List Byte) (c dkLen : Nat) : List Byte := pbkdf2 hmacSha256 P S c dkLen

end Pbkdf2
end Spec
