import Verif.Rust

/-! Model of `/repo/src/aes.rs`. -/

namespace Verif.Aes
open Verif

/-- src/aes.rs:13 -/
abbrev BLOCK_SIZE : Nat := 16
/-- src/aes.rs:14 -/
def NB : Nat := 4

/-- src/aes.rs:17, `block[column][row]` -/
abbrev Block := Vector (Vector U8 4) 4

set_option maxRecDepth 8192 in
/-- src/aes.rs:19-36 -/
def SBOX : Vector U8 256 := #v[
  0x63, 0x7c, 0x77, 0x7b, 0xf2, 0x6b, 0x6f, 0xc5, 0x30, 0x01, 0x67, 0x2b, 0xfe, 0xd7, 0xab, 0x76,
  0xca, 0x82, 0xc9, 0x7d, 0xfa, 0x59, 0x47, 0xf0, 0xad, 0xd4, 0xa2, 0xaf, 0x9c, 0xa4, 0x72, 0xc0,
  0xb7, 0xfd, 0x93, 0x26, 0x36, 0x3f, 0xf7, 0xcc, 0x34, 0xa5, 0xe5, 0xf1, 0x71, 0xd8, 0x31, 0x15,
  0x04, 0xc7, 0x23, 0xc3, 0x18, 0x96, 0x05, 0x9a, 0x07, 0x12, 0x80, 0xe2, 0xeb, 0x27, 0xb2, 0x75,
  0x09, 0x83, 0x2c, 0x1a, 0x1b, 0x6e, 0x5a, 0xa0, 0x52, 0x3b, 0xd6, 0xb3, 0x29, 0xe3, 0x2f, 0x84,
  0x53, 0xd1, 0x00, 0xed, 0x20, 0xfc, 0xb1, 0x5b, 0x6a, 0xcb, 0xbe, 0x39, 0x4a, 0x4c, 0x58, 0xcf,
  0xd0, 0xef, 0xaa, 0xfb, 0x43, 0x4d, 0x33, 0x85, 0x45, 0xf9, 0x02, 0x7f, 0x50, 0x3c, 0x9f, 0xa8,
  0x51, 0xa3, 0x40, 0x8f, 0x92, 0x9d, 0x38, 0xf5, 0xbc, 0xb6, 0xda, 0x21, 0x10, 0xff, 0xf3, 0xd2,
  0xcd, 0x0c, 0x13, 0xec, 0x5f, 0x97, 0x44, 0x17, 0xc4, 0xa7, 0x7e, 0x3d, 0x64, 0x5d, 0x19, 0x73,
  0x60, 0x81, 0x4f, 0xdc, 0x22, 0x2a, 0x90, 0x88, 0x46, 0xee, 0xb8, 0x14, 0xde, 0x5e, 0x0b, 0xdb,
  0xe0, 0x32, 0x3a, 0x0a, 0x49, 0x06, 0x24, 0x5c, 0xc2, 0xd3, 0xac, 0x62, 0x91, 0x95, 0xe4, 0x79,
  0xe7, 0xc8, 0x37, 0x6d, 0x8d, 0xd5, 0x4e, 0xa9, 0x6c, 0x56, 0xf4, 0xea, 0x65, 0x7a, 0xae, 0x08,
  0xba, 0x78, 0x25, 0x2e, 0x1c, 0xa6, 0xb4, 0xc6, 0xe8, 0xdd, 0x74, 0x1f, 0x4b, 0xbd, 0x8b, 0x8a,
  0x70, 0x3e, 0xb5, 0x66, 0x48, 0x03, 0xf6, 0x0e, 0x61, 0x35, 0x57, 0xb9, 0x86, 0xc1, 0x1d, 0x9e,
  0xe1, 0xf8, 0x98, 0x11, 0x69, 0xd9, 0x8e, 0x94, 0x9b, 0x1e, 0x87, 0xe9, 0xce, 0x55, 0x28, 0xdf,
  0x8c, 0xa1, 0x89, 0x0d, 0xbf, 0xe6, 0x42, 0x68, 0x41, 0x99, 0x2d, 0x0f, 0xb0, 0x54, 0xbb, 0x16
]

set_option maxRecDepth 8192 in
/-- src/aes.rs:38-55 -/
def INV_SBOX : Vector U8 256 := #v[
  0x52, 0x09, 0x6a, 0xd5, 0x30, 0x36, 0xa5, 0x38, 0xbf, 0x40, 0xa3, 0x9e, 0x81, 0xf3, 0xd7, 0xfb,
  0x7c, 0xe3, 0x39, 0x82, 0x9b, 0x2f, 0xff, 0x87, 0x34, 0x8e, 0x43, 0x44, 0xc4, 0xde, 0xe9, 0xcb,
  0x54, 0x7b, 0x94, 0x32, 0xa6, 0xc2, 0x23, 0x3d, 0xee, 0x4c, 0x95, 0x0b, 0x42, 0xfa, 0xc3, 0x4e,
  0x08, 0x2e, 0xa1, 0x66, 0x28, 0xd9, 0x24, 0xb2, 0x76, 0x5b, 0xa2, 0x49, 0x6d, 0x8b, 0xd1, 0x25,
  0x72, 0xf8, 0xf6, 0x64, 0x86, 0x68, 0x98, 0x16, 0xd4, 0xa4, 0x5c, 0xcc, 0x5d, 0x65, 0xb6, 0x92,
  0x6c, 0x70, 0x48, 0x50, 0xfd, 0xed, 0xb9, 0xda, 0x5e, 0x15, 0x46, 0x57, 0xa7, 0x8d, 0x9d, 0x84,
  0x90, 0xd8, 0xab, 0x00, 0x8c, 0xbc, 0xd3, 0x0a, 0xf7, 0xe4, 0x58, 0x05, 0xb8, 0xb3, 0x45, 0x06,
  0xd0, 0x2c, 0x1e, 0x8f, 0xca, 0x3f, 0x0f, 0x02, 0xc1, 0xaf, 0xbd, 0x03, 0x01, 0x13, 0x8a, 0x6b,
  0x3a, 0x91, 0x11, 0x41, 0x4f, 0x67, 0xdc, 0xea, 0x97, 0xf2, 0xcf, 0xce, 0xf0, 0xb4, 0xe6, 0x73,
  0x96, 0xac, 0x74, 0x22, 0xe7, 0xad, 0x35, 0x85, 0xe2, 0xf9, 0x37, 0xe8, 0x1c, 0x75, 0xdf, 0x6e,
  0x47, 0xf1, 0x1a, 0x71, 0x1d, 0x29, 0xc5, 0x89, 0x6f, 0xb7, 0x62, 0x0e, 0xaa, 0x18, 0xbe, 0x1b,
  0xfc, 0x56, 0x3e, 0x4b, 0xc6, 0xd2, 0x79, 0x20, 0x9a, 0xdb, 0xc0, 0xfe, 0x78, 0xcd, 0x5a, 0xf4,
  0x1f, 0xdd, 0xa8, 0x33, 0x88, 0x07, 0xc7, 0x31, 0xb1, 0x12, 0x10, 0x59, 0x27, 0x80, 0xec, 0x5f,
  0x60, 0x51, 0x7f, 0xa9, 0x19, 0xb5, 0x4a, 0x0d, 0x2d, 0xe5, 0x7a, 0x9f, 0x93, 0xc9, 0x9c, 0xef,
  0xa0, 0xe0, 0x3b, 0x4d, 0xae, 0x2a, 0xf5, 0xb0, 0xc8, 0xeb, 0xbb, 0x3c, 0x83, 0x53, 0x99, 0x61,
  0x17, 0x2b, 0x04, 0x7e, 0xba, 0x77, 0xd6, 0x26, 0xe1, 0x69, 0x14, 0x63, 0x55, 0x21, 0x0c, 0x7d
]

/-- src/aes.rs:60-71 -/
def RCON : Vector U32 10 := #v[
  0x01000000,
  0x02000000,
  0x04000000,
  0x08000000,
  0x10000000,
  0x20000000,
  0x40000000,
  0x80000000,
  0x1b000000,
  0x36000000
]

/-- src/aes.rs:74-80 -/
def double (b : U8) : U8 :=
  if (b &&& 0x80) = 0 then b <<< 1 else (b <<< 1) ^^^ 0x1b

/-- The `while by != 0` loop of `mul` (src/aes.rs:86-92), with fuel; a `usize` becomes 0 after at most
`usize::BITS` right shifts. -/
def mulLoop : Nat → Nat → U8 → U8 → U8
  | 0, _, _, res => res
  | fuel + 1, by_, power, res =>
    if by_ ≠ 0 then
      mulLoop fuel (by_ >>> 1) (double power) (if (by_ &&& 1) ≠ 0 then res ^^^ power else res)
    else res

/-- src/aes.rs:83-94. The fuel 64 is at least `usize::BITS` on every target. -/
def mul (b : U8) (by_ : Nat) : U8 := mulLoop 64 by_ b 0

/-- src/aes.rs:96-106 -/
def sub_word (b : U32) : M U32 := do
  let b0 := (b >>> 24).toNat
  let b1 := ((b >>> 16) &&& 0xff).toNat
  let b2 := ((b >>> 8) &&& 0xff).toNat
  let b3 := (b &&& 0xff).toNat
  return ((← vidx SBOX b0).setWidth 32 <<< 24)
    ||| ((← vidx SBOX b1).setWidth 32 <<< 16)
    ||| ((← vidx SBOX b2).setWidth 32 <<< 8)
    ||| (← vidx SBOX b3).setWidth 32

/-- src/aes.rs:108-110 -/
def rot_word (b : U32) : U32 := (b <<< 8) ||| (b >>> 24)

/-- src/aes.rs:112-160. The two `while` loops increment `i` once per iteration and become range loops.
The only call passes a key of at most 32 bytes and a round count of at most 14, so the index
arithmetic is done in `Nat` (`i - 1`, `i - nk` and `i / nk - 1` do not underflow because `i >= nk >= 1`;
`nk = 0` is covered by the panic of `%`). -/
def expand_key (T : Target) (key : List U8) (round_count : Nat) : M (List U32) := do
  let nk := key.length / 4
  let w ← forRange 0 nk ([] : List U32) fun i w => do
    let k0 ← idx key (4 * i)
    let k1 ← idx key (4 * i + 1)
    let k2 ← idx key (4 * i + 2)
    let k3 ← idx key (4 * i + 3)
    return w ++ [(k0.setWidth 32 <<< 24) ||| (k1.setWidth 32 <<< 16) ||| (k2.setWidth 32 <<< 8) ||| k3.setWidth 32]
  forRange nk (NB * (round_count + 1)) w fun i w => do
    let temp ← idx w (← T.sub i 1)
    let m ← T.rem i nk
    let temp ← (if m = 0 then do
        let s ← sub_word (rot_word temp)
        let rc ← vidx RCON (← T.sub (i / nk) 1)
        return s ^^^ rc
      else if nk > 6 ∧ m = 4 then
        sub_word temp
      else
        return temp : M U32)
    let prev ← idx w (← T.sub i nk)
    return w ++ [prev ^^^ temp]

/-- One column of `add_round_key` (src/aes.rs:171-174). -/
def addKeyColumn (col : Vector U8 4) (key : U32) : Vector U8 4 :=
  #v[col[0] ^^^ (key >>> 24).setWidth 8,
     col[1] ^^^ ((key >>> 16) &&& 0xff).setWidth 8,
     col[2] ^^^ ((key >>> 8) &&& 0xff).setWidth 8,
     col[3] ^^^ (key &&& 0xff).setWidth 8]

/-- src/aes.rs:169-176. `zip` stops at the shorter of the four columns and the round key. -/
def add_round_key (s : Block) (round_key : List U32) : Block :=
  Vector.ofFn fun c : Fin 4 =>
    match round_key[c.val]? with
    | some key => addKeyColumn s[c] key
    | none => s[c]

/-- `AESEncrypt::lookup_sbox` (src/aes.rs:197-199) -/
def encLookup (b : U8) : M U8 := vidx SBOX b.toNat

/-- `AESDecrypt::lookup_sbox` (src/aes.rs:221-223) -/
def decLookup (b : U8) : M U8 := vidx INV_SBOX b.toNat

/-- `AESSide::sub_bytes` (src/aes.rs:178-184), `lookup` is `Self::lookup_sbox` -/
def sub_bytes (lookup : U8 → M U8) (s : Block) : M Block :=
  s.mapM (fun col => col.mapM lookup)

/-- `AESSide::mix_columns` (src/aes.rs:186-190), `mix_column` is `Self::mix_column` -/
def mix_columns (mix_column : Vector U8 4 → Vector U8 4) (s : Block) : Block :=
  s.map mix_column

/-- `AESEncrypt::mix_column` (src/aes.rs:201-208) -/
def encMixColumn (col : Vector U8 4) : Vector U8 4 :=
  #v[mul col[0] 2 ^^^ mul col[1] 3 ^^^ col[2] ^^^ col[3],
     mul col[1] 2 ^^^ mul col[2] 3 ^^^ col[3] ^^^ col[0],
     mul col[2] 2 ^^^ mul col[3] 3 ^^^ col[0] ^^^ col[1],
     mul col[3] 2 ^^^ mul col[0] 3 ^^^ col[1] ^^^ col[2]]

/-- `AESEncrypt::shift_rows` (src/aes.rs:210-217) -/
def encShiftRows (s : Block) : Block :=
  #v[#v[s[0][0], s[1][1], s[2][2], s[3][3]],
     #v[s[1][0], s[2][1], s[3][2], s[0][3]],
     #v[s[2][0], s[3][1], s[0][2], s[1][3]],
     #v[s[3][0], s[0][1], s[1][2], s[2][3]]]

/-- `AESDecrypt::mix_column` (src/aes.rs:225-232) -/
def decMixColumn (col : Vector U8 4) : Vector U8 4 :=
  #v[mul col[0] 0x0e ^^^ mul col[1] 0x0b ^^^ mul col[2] 0x0d ^^^ mul col[3] 0x09,
     mul col[1] 0x0e ^^^ mul col[2] 0x0b ^^^ mul col[3] 0x0d ^^^ mul col[0] 0x09,
     mul col[2] 0x0e ^^^ mul col[3] 0x0b ^^^ mul col[0] 0x0d ^^^ mul col[1] 0x09,
     mul col[3] 0x0e ^^^ mul col[0] 0x0b ^^^ mul col[1] 0x0d ^^^ mul col[2] 0x09]

/-- `AESDecrypt::shift_rows` (src/aes.rs:234-241) -/
def decShiftRows (s : Block) : Block :=
  #v[#v[s[0][0], s[3][1], s[2][2], s[1][3]],
     #v[s[1][0], s[0][1], s[3][2], s[2][3]],
     #v[s[2][0], s[1][1], s[0][2], s[3][3]],
     #v[s[3][0], s[2][1], s[1][2], s[0][3]]]

/-- src/aes.rs:244-251 -/
def to_block (b : Vector U8 16) : Block :=
  #v[#v[b[0], b[1], b[2], b[3]],
     #v[b[4], b[5], b[6], b[7]],
     #v[b[8], b[9], b[10], b[11]],
     #v[b[12], b[13], b[14], b[15]]]

/-- src/aes.rs:253-258 -/
def from_block (s : Block) : Vector U8 16 :=
  #v[s[0][0], s[0][1], s[0][2], s[0][3], s[1][0], s[1][1], s[1][2], s[1][3], s[2][0], s[2][1],
     s[2][2], s[2][3], s[3][0], s[3][1], s[3][2], s[3][3]]

/-- src/aes.rs:262-269 -/
inductive AESError where
  | InvalidKeySize
  | NotInitialized
deriving DecidableEq, Repr

/-- src/aes.rs:277-284 -/
def AESError.description : AESError → String
  | .InvalidKeySize => "key size must be either of: 128, 192, or 256 bits"
  | .NotInitialized => "AES instance must be initialized prior to use"

/-- src/aes.rs:271-275 -/
def AESError.display (e : AESError) : String := "AESError: " ++ e.description

/-- src/aes.rs:312-315 -/
structure AES where
  round_count : Nat
  round_keys : Option (List U32)
deriving DecidableEq, Repr

namespace AES

/-- src/aes.rs:319-324 -/
def new : AES := { round_count := 0, round_keys := none }

/-- `impl Default` (src/aes.rs:405-409) -/
def default : AES := new

/-- src/aes.rs:327-346. The `return Err` happens before the assignment to `self.round_count`. -/
def init (T : Target) (self : AES) (key : List U8) : M (AES × Except AESError Unit) :=
  let go (round_count : Nat) : M (AES × Except AESError Unit) := do
    let self := { self with round_count := round_count }
    let keys ← expand_key T key self.round_count
    return ({ self with round_keys := some keys }, .ok ())
  match key.length with
  | 16 => go 10
  | 24 => go 12
  | 32 => go 14
  | _ => return (self, .error .InvalidKeySize)

/-- The body of the round loop of `encrypt` (src/aes.rs:363-366). -/
def encRound (round_keys : List U32) (round : Nat) (state : Block) : M Block := do
  let state ← sub_bytes encLookup state
  let state := encShiftRows state
  let state := mix_columns encMixColumn state
  return add_round_key state (← slice round_keys (round * NB) ((round + 1) * NB))

/-- src/aes.rs:349-374 -/
def encrypt (self : AES) (b : Vector U8 16) : M (Except AESError (Vector U8 16)) :=
  let nr := self.round_count
  let state := to_block b
  match self.round_keys with
  | none => return .error .NotInitialized
  | some round_keys => do
    let state := add_round_key state (← slice round_keys 0 NB)
    let state ← forRange 1 nr state (encRound round_keys)
    let state ← sub_bytes encLookup state
    let state := encShiftRows state
    let state := add_round_key state (← sliceFrom round_keys (nr * NB))
    return .ok (from_block state)

/-- The body of the round loop of `decrypt` (src/aes.rs:391-394). -/
def decRound (round_keys : List U32) (round : Nat) (state : Block) : M Block := do
  let state := decShiftRows state
  let state ← sub_bytes decLookup state
  let state := add_round_key state (← slice round_keys (round * NB) ((round + 1) * NB))
  return mix_columns decMixColumn state

/-- src/aes.rs:377-402 -/
def decrypt (self : AES) (b : Vector U8 16) : M (Except AESError (Vector U8 16)) :=
  let nr := self.round_count
  let state := to_block b
  match self.round_keys with
  | none => return .error .NotInitialized
  | some round_keys => do
    let state := add_round_key state (← sliceFrom round_keys (nr * NB))
    let state ← forRangeRev 1 nr state (decRound round_keys)
    let state := decShiftRows state
    let state ← sub_bytes decLookup state
    let state := add_round_key state (← slice round_keys 0 NB)
    return .ok (from_block state)

end AES
end Verif.Aes
