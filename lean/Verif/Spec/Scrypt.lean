import Verif.Spec.Pbkdf2
import Verif.Spec.Salsa20

/-
scrypt, written from RFC 7914 sections 3 to 6, on octet strings.
-/

namespace Spec.Scrypt
open Spec

/-- Section 3: Salsa20/8 (four double rounds). -/
def salsa208 (x : List Byte) : List Byte := Salsa20.core 4 x

/-- `B[i]`: the `i`-th 64-octet block of an octet string. -/
def block (B : List Byte) (i : Nat) : List Byte := (B.drop (64 * i)).take 64

/-- Section 4, step 2: the `i`-th value of `X`, starting from `X = B[2 * r - 1]`. -/
def Y (r : Nat) (B : List Byte) : Nat → List Byte
  | 0 => salsa208 (xorBytes (block B (2 * r - 1)) (block B 0))
  | i + 1 => salsa208 (xorBytes (Y r B i) (block B (i + 1)))

/-- Section 4: `scryptBlockMix`, `B' = (Y[0], Y[2], ..., Y[2 * r - 2], Y[1], Y[3], ..., Y[2 * r - 1])`. -/
def blockMix (r : Nat) (B : List Byte) : List Byte :=
  (List.range r).flatMap (fun i => Y r B (2 * i)) ++ (List.range r).flatMap (fun i => Y r B (2 * i + 1))

/-- An octet string as a little-endian integer. -/
def littleEndian : List Byte → Nat
  | [] => 0
  | b :: bs => b.toNat + 256 * littleEndian bs

/-- Section 5: `Integerify (B[0] ... B[2 * r - 1])` is `B[2 * r - 1]` as a little-endian integer. -/
def integerify (r : Nat) (X : List Byte) : Nat := littleEndian (block X (2 * r - 1))

/-- Section 5, step 2: `V[i]`; `V[N]` is the value of `X` after the loop. -/
def V (r : Nat) (B : List Byte) : Nat → List Byte
  | 0 => B
  | i + 1 => blockMix r (V r B i)

/-- Section 5, step 3: `X` after `k` iterations. -/
def X (r N : Nat) (B : List Byte) : Nat → List Byte
  | 0 => V r B N
  | k + 1 => blockMix r (xorBytes (X r N B k) (V r B (integerify r (X r N B k) % N)))

/-- Section 5: `scryptROMix (r, B, N)`. -/
def roMix (r N : Nat) (B : List Byte) : List Byte := X r N B N

/-- Section 6, over a key derivation function `kdf (P, S, dkLen)`. -/
def scryptWith (kdf : List Byte → List Byte → Nat → List Byte) (P S : List Byte) (N r p dkLen : Nat) : List Byte :=
  let B := kdf P S (p * 128 * r)
  let B' := (List.range p).flatMap fun i => roMix r N ((B.drop (128 * r * i)).take (128 * r))
  kdf P B' dkLen

/-- Section 6: `scrypt (P, S, N, r, p, dkLen)`. -/
def scrypt (P S : List Byte) (N r p dkLen : Nat) : List Byte :=
  scryptWith (fun P S dkLen => Pbkdf2.pbkdf2HmacSha256 P S 1 dkLen) P S N r p dkLen

end Spec.Scrypt
