import Verif.Spec.Sha256

/-
AES, written from FIPS-197. Bytes are polynomials of degree below 8 over GF(2), bit `i` being the coefficient of `x^i`.
-/

namespace Spec.Aes
open Spec

/-! ### Section 4: GF(2^8) -/

/-- Multiplication of polynomials over GF(2): the sum of `a * x^i` over the terms `x^i` of `b`. -/
def polyMul (a b : Byte) : BitVec 16 :=
  (List.range 8).foldl (fun acc i => if b.getLsbD i then acc ^^^ (a.setWidth 16 <<< i) else acc) 0

/-- Remainder modulo `m(x) = x^8 + x^4 + x^3 + x + 1` of a polynomial of degree below 16: the terms `x^15, ..., x^8` are
cancelled one after the other with a multiple of `m(x)`. -/
def polyMod (p : BitVec 16) : Byte :=
  ((List.range 8).reverse.foldl (fun acc i => if acc.getLsbD (8 + i) then acc ^^^ (0x11b#16 <<< i) else acc) p).setWidth 8

/-- Section 4.2: the product in GF(2^8). -/
def gmul (a b : Byte) : Byte := polyMod (polyMul a b)

/-- All 256 bytes. -/
def allBytes : List Byte := (List.range 256).map (BitVec.ofNat 8)

/-- The multiplicative inverse: the byte whose product with `a` is 1, and `0` when there is none, that is for `0`. -/
def ginv (a : Byte) : Byte := (allBytes.find? fun c => gmul a c = 1).getD 0

def gpow (a : Byte) : Nat → Byte
  | 0 => 1
  | n + 1 => gmul a (gpow a n)

/-! ### Section 5.1: the cipher -/

/-- Section 5.1.1: inverse in GF(2^8), then the affine transformation
`b'_i = b_i + b_(i+4 mod 8) + b_(i+5 mod 8) + b_(i+6 mod 8) + b_(i+7 mod 8) + c_i` with `c = 63`. -/
def affineBit (b : Byte) (i : Nat) : Bool :=
  b.getLsbD i ^^ b.getLsbD ((i + 4) % 8) ^^ b.getLsbD ((i + 5) % 8) ^^ b.getLsbD ((i + 6) % 8) ^^
    b.getLsbD ((i + 7) % 8) ^^ (0x63 : Byte).getLsbD i

/-- The byte with these bits. -/
def affine (b : Byte) : Byte :=
  (List.range 8).foldl (fun acc i => if affineBit b i then acc ||| (1#8 <<< i) else acc) 0

def sbox (b : Byte) : Byte := affine (ginv b)

/-- Section 3.4: the state, `s r c` in row `r` and column `c`. -/
abbrev State := Fin 4 → Fin 4 → Byte

/-- `s[r, c] = in[r + 4c]` -/
def load (inp : List Byte) : State := fun r c => byteAt inp (r + 4 * c)

/-- `out[r + 4c] = s[r, c]` -/
def store (s : State) : List Byte := (List.range 16).map fun k => s (Fin.ofNat 4 (k % 4)) (Fin.ofNat 4 (k / 4))

def subBytes (s : State) : State := fun r c => sbox (s r c)

/-- Section 5.1.2: row `r` is shifted cyclically by `r`. -/
def shiftRows (s : State) : State := fun r c => s r (c + r)

/-- Section 5.1.3: each column is multiplied by `{03}x^3 + {01}x^2 + {01}x + {02}` modulo `x^4 + 1`. -/
def mixColumns (s : State) : State := fun r c =>
  gmul 0x02 (s r c) ^^^ gmul 0x03 (s (r + 1) c) ^^^ s (r + 2) c ^^^ s (r + 3) c

/-- A word: four bytes. -/
abbrev Word4 := Fin 4 → Byte

/-- Section 5.1.4, `w` being the key schedule. -/
def addRoundKey (w : Nat → Word4) (round : Nat) (s : State) : State := fun r c => s r c ^^^ w (4 * round + c) r

/-! ### Section 5.2: key expansion -/

def subWord (a : Word4) : Word4 := fun r => sbox (a r)
def rotWord (a : Word4) : Word4 := fun r => a (r + 1)
/-- `Rcon[i] = [x^(i-1), {00}, {00}, {00}]` -/
def rcon (i : Nat) : Word4 := fun r => if r = 0 then gpow 0x02 (i - 1) else 0
def xorWord (a b : Word4) : Word4 := fun r => a r ^^^ b r

/-- The key schedule of a key of `4 * nk` bytes (Figure 11), `nk` being 4, 6 or 8. -/
def keyWord (nk : Nat) (key : List Byte) (i : Nat) : Word4 :=
  if h : nk = 0 ∨ i < nk then fun r => byteAt key (4 * i + r)
  else
    let temp := keyWord nk key (i - 1)
    let temp :=
      if i % nk = 0 then xorWord (subWord (rotWord temp)) (rcon (i / nk))
      else if nk > 6 ∧ i % nk = 4 then subWord temp
      else temp
    xorWord (keyWord nk key (i - nk)) temp
termination_by i
decreasing_by all_goals omega

/-! ### The cipher (Figure 5) -/

/-- Rounds `1` to `k`. -/
def rounds (w : Nat → Word4) : Nat → State → State
  | 0, s => s
  | k + 1, s => addRoundKey w (k + 1) (mixColumns (shiftRows (subBytes (rounds w k s))))

def cipher (nr : Nat) (w : Nat → Word4) (inp : List Byte) : List Byte :=
  let s := addRoundKey w 0 (load inp)
  let s := rounds w (nr - 1) s
  store (addRoundKey w nr (shiftRows (subBytes s)))

/-! ### Section 5.3: the inverse cipher (Figure 12) -/

/-- Section 5.3.2: the inverse of `sbox`: the byte whose image is `b`. -/
def invSbox (b : Byte) : Byte := (allBytes.find? fun a => sbox a = b).getD 0

def invShiftRows (s : State) : State := fun r c => s r (c - r)
def invSubBytes (s : State) : State := fun r c => invSbox (s r c)
/-- Section 5.3.3: each column is multiplied by `{0b}x^3 + {0d}x^2 + {09}x + {0e}` modulo `x^4 + 1`. -/
def invMixColumns (s : State) : State := fun r c =>
  gmul 0x0e (s r c) ^^^ gmul 0x0b (s (r + 1) c) ^^^ gmul 0x0d (s (r + 2) c) ^^^ gmul 0x09 (s (r + 3) c)

/-- Rounds `k` down to `1`. -/
def invRounds (w : Nat → Word4) : Nat → State → State
  | 0, s => s
  | k + 1, s => invRounds w k (invMixColumns (addRoundKey w (k + 1) (invSubBytes (invShiftRows s))))

def invCipher (nr : Nat) (w : Nat → Word4) (inp : List Byte) : List Byte :=
  let s := addRoundKey w nr (load inp)
  let s := invRounds w (nr - 1) s
  store (addRoundKey w 0 (invSubBytes (invShiftRows s)))

/-! ### With a key (Figure 4: Nk = 4, 6, 8 and Nr = 10, 12, 14) -/

/-- `Nr = Nk + 6`. -/
def encrypt (key inp : List Byte) : List Byte :=
  cipher (key.length / 4 + 6) (keyWord (key.length / 4) key) inp

def decrypt (key inp : List Byte) : List Byte :=
  invCipher (key.length / 4 + 6) (keyWord (key.length / 4) key) inp

end Spec.Aes
