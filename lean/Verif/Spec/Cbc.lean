import Verif.Spec.Aes
import Verif.Spec.Pbkdf2

/-
CBC mode, written from NIST SP 800-38A section 6.2, and PKCS#7 padding, written from RFC 5652 section 6.3.
-/

namespace Spec.Cbc
open Spec

/-- RFC 5652: the input is padded at the trailing end with `k - (length mod k)` octets all having this value. -/
def pkcs7 (k : Nat) (m : List Byte) : List Byte :=
  m ++ List.replicate (k - m.length % k) (BitVec.ofNat 8 (k - m.length % k))

/-- The complete 16-octet blocks of an octet string, in order. -/
def blocks (s : List Byte) : List (List Byte) :=
  (List.range (s.length / 16)).map fun i => (s.drop (16 * i)).take 16

/-- `C_1 = CIPH (P_1 xor IV)`, `C_j = CIPH (P_j xor C_(j-1))`. -/
def encBlocks (ciph : List Byte → List Byte) : List Byte → List (List Byte) → List (List Byte)
  | _, [] => []
  | prev, p :: ps => ciph (xorBytes p prev) :: encBlocks ciph (ciph (xorBytes p prev)) ps

/-- `P_1 = CIPH^-1 (C_1) xor IV`, `P_j = CIPH^-1 (C_j) xor C_(j-1)`. -/
def decBlocks (ciphInv : List Byte → List Byte) : List Byte → List (List Byte) → List (List Byte)
  | _, [] => []
  | prev, c :: cs => xorBytes (ciphInv c) prev :: decBlocks ciphInv c cs

/-- CBC encryption with AES of the complete blocks of `s`. -/
def encrypt (key iv s : List Byte) : List Byte := (encBlocks (Aes.encrypt key) iv (blocks s)).flatten

/-- CBC decryption with AES of the complete blocks of `s`. -/
def decrypt (key iv s : List Byte) : List Byte := (decBlocks (Aes.decrypt key) iv (blocks s)).flatten

/-- The last block of a ciphertext, the initialization vector when there is none. -/
def lastBlock (iv c : List Byte) : List Byte := (blocks c).getLastD iv

/-- `v` is at most 16 and the last `v` octets of `p` all have the value `v`. With `1 ≤ v` and `v` the last octet of `p`, this
is a correct PKCS#7 trailer for 16-octet blocks. -/
def Trailer (p : List Byte) (v : Byte) : Prop :=
  v.toNat ≤ 16 ∧ ∀ b ∈ p.drop (p.length - v.toNat), b = v

/-- Several messages encrypted one after the other: each one is padded, and the last ciphertext block of a message is the
initialization vector of the next one. -/
def chain (key : List Byte) : List Byte → List (List Byte) → List (List Byte)
  | _, [] => []
  | iv, m :: ms => encrypt key iv (pkcs7 16 m) :: chain key (lastBlock iv (encrypt key iv (pkcs7 16 m))) ms

end Spec.Cbc
