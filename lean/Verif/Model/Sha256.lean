import Verif.Rust
import Verif.Model.Common

/-! Model of `/repo/src/sha256.rs`. -/

namespace Verif.Sha256
open Verif

/-- src/sha256.rs:9 -/
def DIGEST_SIZE : Nat := 32
/-- src/sha256.rs:12 -/
def BLOCK_SIZE : Nat := 64

/-- src/sha256.rs:15-80 -/
def K : Vector U32 64 := #v[
  0x428a2f98,
  0x71374491,
  0xb5c0fbcf,
  0xe9b5dba5,
  0x3956c25b,
  0x59f111f1,
  0x923f82a4,
  0xab1c5ed5,
  0xd807aa98,
  0x12835b01,
  0x243185be,
  0x550c7dc3,
  0x72be5d74,
  0x80deb1fe,
  0x9bdc06a7,
  0xc19bf174,
  0xe49b69c1,
  0xefbe4786,
  0x0fc19dc6,
  0x240ca1cc,
  0x2de92c6f,
  0x4a7484aa,
  0x5cb0a9dc,
  0x76f988da,
  0x983e5152,
  0xa831c66d,
  0xb00327c8,
  0xbf597fc7,
  0xc6e00bf3,
  0xd5a79147,
  0x06ca6351,
  0x14292967,
  0x27b70a85,
  0x2e1b2138,
  0x4d2c6dfc,
  0x53380d13,
  0x650a7354,
  0x766a0abb,
  0x81c2c92e,
  0x92722c85,
  0xa2bfe8a1,
  0xa81a664b,
  0xc24b8b70,
  0xc76c51a3,
  0xd192e819,
  0xd6990624,
  0xf40e3585,
  0x106aa070,
  0x19a4c116,
  0x1e376c08,
  0x2748774c,
  0x34b0bcb5,
  0x391c0cb3,
  0x4ed8aa4a,
  0x5b9cca4f,
  0x682e6ff3,
  0x748f82ee,
  0x78a5636f,
  0x84c87814,
  0x8cc70208,
  0x90befffa,
  0xa4506ceb,
  0xbef9a3f7,
  0xc67178f2
]

/-- src/sha256.rs:82-91 -/
def H : Vector U32 8 := #v[
  0x6a09e667,
  0xbb67ae85,
  0x3c6ef372,
  0xa54ff53a,
  0x510e527f,
  0x9b05688c,
  0x1f83d9ab,
  0x5be0cd19
]

/-- src/sha256.rs:94-96 -/
def ch (x y z : U32) : U32 := (x &&& y) ^^^ ((~~~x) &&& z)

/-- src/sha256.rs:99-101 -/
def maj (x y z : U32) : U32 := (x &&& y) ^^^ (x &&& z) ^^^ (y &&& z)

/-- src/sha256.rs:103-105. Only called with the constants 2, 6, 7, 11, 13, 17, 18, 19, 22, 25, for which neither
shift amount reaches 32, so the shift-overflow panic is not modelled. -/
def rotr (n : U32) (s : Nat) : U32 := (n <<< (32 - s)) ||| (n >>> s)

/-- src/sha256.rs:108-110 -/
def bsig0 (x : U32) : U32 := rotr x 2 ^^^ rotr x 13 ^^^ rotr x 22

/-- src/sha256.rs:113-115 -/
def bsig1 (x : U32) : U32 := rotr x 6 ^^^ rotr x 11 ^^^ rotr x 25

/-- src/sha256.rs:118-120 -/
def ssig0 (x : U32) : U32 := rotr x 7 ^^^ rotr x 18 ^^^ (x >>> 3)

/-- src/sha256.rs:123-125 -/
def ssig1 (x : U32) : U32 := rotr x 17 ^^^ rotr x 19 ^^^ (x >>> 10)

/-- src/sha256.rs:127-136. The index arithmetic `i * 4 + k` stays below 64 and is done in `Nat`. -/
def fill_block (input : Vector U8 64) (output : Vector U32 16) : M (Vector U32 16) :=
  forRange 0 16 output fun i output => do
    let i0 := (← vidx input (i * 4)).setWidth 32
    let i1 := (← vidx input (i * 4 + 1)).setWidth 32
    let i2 := (← vidx input (i * 4 + 2)).setWidth 32
    let i3 := (← vidx input (i * 4 + 3)).setWidth 32
    vupd output i ((i0 <<< 24) ||| (i1 <<< 16) ||| (i2 <<< 8) ||| i3)

/-- src/sha256.rs:138-147. The argument `&mut buffer[base..]` is passed as the buffer and `base`. -/
def write_u64_be {n : Nat} (data : Vector U8 n) (base : Nat) (value : U64) : M (Vector U8 n) := do
  let data ← vupd data (base + 0) ((value >>> 56).setWidth 8)
  let data ← vupd data (base + 1) ((value >>> 48).setWidth 8)
  let data ← vupd data (base + 2) ((value >>> 40).setWidth 8)
  let data ← vupd data (base + 3) ((value >>> 32).setWidth 8)
  let data ← vupd data (base + 4) ((value >>> 24).setWidth 8)
  let data ← vupd data (base + 5) ((value >>> 16).setWidth 8)
  let data ← vupd data (base + 6) ((value >>> 8).setWidth 8)
  vupd data (base + 7) (value.setWidth 8)

/-- src/sha256.rs:169-173 -/
structure SHA256 where
  h : Vector U32 8
  buffer : Vector U8 64
  length : Nat
deriving DecidableEq, Repr

/-- The working variables `a..h` of `process_block` (src/sha256.rs:196-203). -/
structure Regs where
  a : U32
  b : U32
  c : U32
  d : U32
  e : U32
  f : U32
  g : U32
  h : U32

namespace SHA256

/-- src/sha256.rs:179-185 -/
def new : SHA256 := { h := H, buffer := Vector.replicate 64 0, length := 0 }

/-- `impl Default` (src/sha256.rs:375-379) -/
def default : SHA256 := new

/-- The message schedule loop of `process_block` (src/sha256.rs:195, 205-209). The copy
`w[..16].clone_from_slice(&block[..16])` into the zeroed array is written as an append. -/
def schedule (block : Vector U32 16) : M (Vector U32 64) :=
  forRange 16 64 (block ++ Vector.replicate 48 (0 : U32) : Vector U32 (16 + 48)) fun t w => do
    let w2 ← vidx w (t - 2)
    let w7 ← vidx w (t - 7)
    let w15 ← vidx w (t - 15)
    let w16 ← vidx w (t - 16)
    vupd w t (wrapping_sum (ssig1 w2) [w7, ssig0 w15, w16])

/-- The main loop of `process_block` (src/sha256.rs:245-256). -/
def rounds (w : Vector U32 64) (r : Regs) : M Regs :=
  forRange 0 64 r fun t r => do
    let k ← vidx K t
    let wt ← vidx w t
    let t1 := wrapping_sum r.h [bsig1 r.e, ch r.e r.f r.g, k, wt]
    let t2 := wrapping_sum (bsig0 r.a) [maj r.a r.b r.c]
    return {
      h := r.g
      g := r.f
      f := r.e
      e := wrapping_sum r.d [t1]
      d := r.c
      c := r.b
      b := r.a
      a := wrapping_sum t1 [t2] }

/-- src/sha256.rs:187-277 -/
def process_block (self : SHA256) (block : Vector U32 16) : M SHA256 := do
  let w ← schedule block
  let r ← rounds w {
    a := self.h[0], b := self.h[1], c := self.h[2], d := self.h[3]
    e := self.h[4], f := self.h[5], g := self.h[6], h := self.h[7] }
  return { self with h := #v[
    wrapping_sum self.h[0] [r.a],
    wrapping_sum self.h[1] [r.b],
    wrapping_sum self.h[2] [r.c],
    wrapping_sum self.h[3] [r.d],
    wrapping_sum self.h[4] [r.e],
    wrapping_sum self.h[5] [r.f],
    wrapping_sum self.h[6] [r.g],
    wrapping_sum self.h[7] [r.h]] }

/-- The body of the loop in `update` (src/sha256.rs:285-298); the loop carries `self` and the scratch array `block`. -/
def updateByte (T : Target) (b : U8) (st : SHA256 × Vector U32 16) : M (SHA256 × Vector U32 16) := do
  let (self, block) := st
  let off := self.length % BLOCK_SIZE
  let buffer ← vupd self.buffer off b
  let length ← T.add self.length 1
  let self := { self with buffer := buffer, length := length }
  if self.length % BLOCK_SIZE ≠ 0 then
    return (self, block)
  let block ← fill_block self.buffer block
  let self ← self.process_block block
  return (self, block)

/-- src/sha256.rs:282-299 -/
def update (T : Target) (self : SHA256) (data : List U8) : M SHA256 := do
  let (self, _) ← forEach data (self, Vector.replicate 16 (0 : U32)) (updateByte T)
  return self

/-- Serialisation of the chaining value at the end of `digest` (src/sha256.rs:364-371). -/
def output (h : Vector U32 8) : M (Vector U8 32) :=
  forRange 0 8 (Vector.replicate 32 (0 : U8)) fun i out => do
    let hi ← vidx h i
    let out ← vupd out (i * 4) ((hi >>> 24).setWidth 8)
    let out ← vupd out (i * 4 + 1) ((hi >>> 16).setWidth 8)
    let out ← vupd out (i * 4 + 2) ((hi >>> 8).setWidth 8)
    vupd out (i * 4 + 3) (hi.setWidth 8)

/-- src/sha256.rs:304-372 -/
def digest (T : Target) (self : SHA256) : M (SHA256 × Vector U8 32) := do
  let block : Vector U32 16 := Vector.replicate 16 0
  let off := self.length % BLOCK_SIZE
  -- (b)
  let buffer ← forRange off 64 self.buffer fun i buffer => vupd buffer i 0
  let self := { self with buffer := buffer }
  let has_overflow := off + 9 > BLOCK_SIZE
  let (self, block, off) ← (if has_overflow then do
      -- (a)
      let v ← vidx self.buffer off
      let buffer ← vupd self.buffer off (v ||| 0x80)
      let self := { self with buffer := buffer }
      let block ← fill_block self.buffer block
      let self ← self.process_block block
      return ({ self with buffer := Vector.replicate 64 0 }, block, 0)
    else
      return (self, block, off) : M (SHA256 × Vector U32 16 × Nat))
  -- (c)
  let len_off := 64 - 8
  let bitlen ← T.mul self.length 8
  let buffer ← write_u64_be self.buffer len_off (BitVec.ofNat 64 bitlen)
  let self := { self with buffer := buffer }
  -- (a)
  let self ← (if ¬ has_overflow then do
      let v ← vidx self.buffer off
      let buffer ← vupd self.buffer off (v ||| 0x80)
      return { self with buffer := buffer }
    else
      return self : M SHA256)
  let block ← fill_block self.buffer block
  let self ← self.process_block block
  let out ← output self.h
  return (self, out)

end SHA256

end Verif.Sha256
