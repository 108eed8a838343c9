/-
SHA-256, written from FIPS 180-4 (and RFC 6234) without reference to the implementation.
Byte-oriented messages only.
-/

namespace Spec

abbrev Byte := BitVec 8
abbrev Word := BitVec 32

/-- The `k`-th byte of a byte string (only used for positions inside the string). -/
def byteAt (bs : List Byte) (k : Nat) : Byte := bs.getD k 0

/-- Big-endian 32-bit word starting at byte position `k`. -/
def be32At (bs : List Byte) (k : Nat) : Word :=
  byteAt bs k ++ byteAt bs (k + 1) ++ byteAt bs (k + 2) ++ byteAt bs (k + 3)

/-- The `n`-byte big-endian encoding of a number (its residue modulo `256 ^ n`). -/
def beBytes (n : Nat) (v : Nat) : List Byte :=
  (List.range n).map fun i => BitVec.ofNat 8 (v / 256 ^ (n - 1 - i))

namespace Sha256

/-! ### Constants (FIPS 180-4, 4.2.2 and 5.3.3) -/

def isPrime (n : Nat) : Bool := decide (2 ≤ n) && (List.range n).all fun d => decide (d < 2) || decide (n % d ≠ 0)

/-- The primes below 312; these are the first 64 primes (`Verif.Proof.Sha256` does not rely on the count,
`Verif.Props.Sha256` proves it). -/
def primes : List Nat := (List.range 312).filter isPrime

def rootAux (e n : Nat) : Nat → Nat → Nat
  | 0, r => r
  | b + 1, r => if (r + 2 ^ b) ^ e ≤ n then rootAux e n b (r + 2 ^ b) else rootAux e n b r

/-- The integer part of the `e`-th root of `n`, for results below `2 ^ 64`. -/
def root (e n : Nat) : Nat := rootAux e n 64 0

/-- First 32 bits of the fractional part of the cube root of the `t`-th prime. -/
def K (t : Nat) : Word := BitVec.ofNat 32 (root 3 (primes.getD t 0 * 2 ^ 96))

/-- First 32 bits of the fractional part of the square root of the `t`-th prime. -/
def IV (t : Nat) : Word := BitVec.ofNat 32 (root 2 (primes.getD t 0 * 2 ^ 64))

/-! ### Functions (FIPS 180-4, 4.1.2) -/

def Ch (x y z : Word) : Word := (x &&& y) ^^^ (~~~x &&& z)
def Maj (x y z : Word) : Word := (x &&& y) ^^^ (x &&& z) ^^^ (y &&& z)
def bigSigma0 (x : Word) : Word := x.rotateRight 2 ^^^ x.rotateRight 13 ^^^ x.rotateRight 22
def bigSigma1 (x : Word) : Word := x.rotateRight 6 ^^^ x.rotateRight 11 ^^^ x.rotateRight 25
def smallSigma0 (x : Word) : Word := x.rotateRight 7 ^^^ x.rotateRight 18 ^^^ (x >>> 3)
def smallSigma1 (x : Word) : Word := x.rotateRight 17 ^^^ x.rotateRight 19 ^^^ (x >>> 10)

/-! ### Hash computation (FIPS 180-4, 6.2.2) -/

/-- The message schedule of the block with words `m 0 .. m 15`. -/
def W (m : Nat → Word) (t : Nat) : Word :=
  if t < 16 then m t
  else smallSigma1 (W m (t - 2)) + W m (t - 7) + smallSigma0 (W m (t - 15)) + W m (t - 16)
termination_by t

/-- The hash value `H_0 .. H_7`, also used for the working variables `a .. h`. -/
abbrev State := Vector Word 8

def initial : State := Vector.ofFn fun i : Fin 8 => IV i

def round (k w : Word) (s : State) : State :=
  let a := s[0]; let b := s[1]; let c := s[2]; let d := s[3]
  let e := s[4]; let f := s[5]; let g := s[6]; let h := s[7]
  let T1 := h + bigSigma1 e + Ch e f g + k + w
  let T2 := bigSigma0 a + Maj a b c
  #v[T1 + T2, a, b, c, d + T1, e, f, g]

/-- Working variables after rounds `0 .. n - 1`. -/
def rounds (m : Nat → Word) (s : State) : Nat → State
  | 0 => s
  | t + 1 => round (K t) (W m t) (rounds m s t)

def compress (h : State) (m : Nat → Word) : State :=
  Vector.zipWith (· + ·) h (rounds m h 64)

/-- Word `t` of the `i`-th 512-bit block of `bs`. -/
def blockWord (bs : List Byte) (i t : Nat) : Word := be32At bs (64 * i + 4 * t)

/-- The hash value after the first `n` blocks of `bs`, starting from `h`. -/
def hashBlocks (h : State) (bs : List Byte) : Nat → State
  | 0 => h
  | n + 1 => compress (hashBlocks h bs n) (blockWord bs n)

/-- The hash value after all whole blocks of `bs`. -/
def hashAll (h : State) (bs : List Byte) : State := hashBlocks h bs (bs.length / 64)

/-! ### Padding (FIPS 180-4, 5.1.1) -/

/-- Number of zero bytes after the byte `0x80`: the smallest `z` with `n + 1 + z + 8` a multiple of 64. -/
def zeroBytes (n : Nat) : Nat := (119 - n % 64) % 64

/-- Padding for a message of `n` bytes, with a given 64-bit length field. -/
def padding (n lengthField : Nat) : List Byte :=
  0x80 :: (List.replicate (zeroBytes n) 0 ++ beBytes 8 lengthField)

def output (h : State) : List Byte := h.toList.flatMap fun w => beBytes 4 w.toNat

/-- SHA-256 with an explicit value for the length field. -/
def sha256WithLength (lengthField : Nat) (msg : List Byte) : List Byte :=
  output (hashAll initial (msg ++ padding msg.length lengthField))

/-- SHA-256 of a byte string (of fewer than `2 ^ 61` bytes). -/
def sha256 (msg : List Byte) : List Byte := sha256WithLength (8 * msg.length) msg

/-! ### An incremental hasher whose `finish` does not reset it -/

/-- Hash value of the whole blocks absorbed so far, bytes of the incomplete block, number of bytes absorbed. -/
structure Machine where
  chain : State
  pending : List Byte
  total : Nat

def Machine.start : Machine := ⟨initial, [], 0⟩

/-- Absorb bytes. -/
def Machine.absorb (m : Machine) (data : List Byte) : Machine :=
  let all := m.pending ++ data
  { chain := hashAll m.chain all
    pending := all.drop (64 * (all.length / 64))
    total := m.total + data.length }

/-- Hash the pending bytes followed by the padding for `total` bytes; the result stays in the chain, `total` is kept,
and the bytes in front of the last padded block take the place of the pending bytes. -/
def Machine.finish (m : Machine) (lengthField : Nat) : Machine × List Byte :=
  let all := m.pending ++ padding m.total lengthField
  let chain := hashAll m.chain all
  ({ m with chain := chain, pending := (all.drop (all.length - 64)).take m.pending.length }, output chain)

end Sha256
end Spec
