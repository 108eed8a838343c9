import Verif.Rust
import Verif.Model.Common

/-! Model of `/repo/src/salsa20.rs`. -/

namespace Verif.Salsa20
open Verif

/-- src/salsa20.rs:9 -/
def BLOCK_SIZE : Nat := 64

/-- src/salsa20.rs:12-14. Only called with the constants 7, 9, 13, 18, for which neither shift amount reaches 32,
so the shift-overflow panic is not modelled. -/
def rotl (n : U32) (s : Nat) : U32 := (n <<< s) ||| (n >>> (32 - s))

/-- src/salsa20.rs:16-29. The slices are always `[u32; 4]` arrays; every element of `z` is assigned before it is
read, so the previous contents of `z` are not a parameter. -/
def quarterround (y : Vector U32 4) : Vector U32 4 :=
  let z1 := y[1] ^^^ rotl (wrapping_sum y[0] [y[3]]) 7
  let z2 := y[2] ^^^ rotl (wrapping_sum z1 [y[0]]) 9
  let z3 := y[3] ^^^ rotl (wrapping_sum z2 [z1]) 13
  let z0 := y[0] ^^^ rotl (wrapping_sum z3 [z2]) 18
  #v[z0, z1, z2, z3]

/-- src/salsa20.rs:31-71. All sixteen elements of `z` are assigned, so its previous contents are not a parameter. -/
def rowround (y : Vector U32 16) : Vector U32 16 :=
  let s0 : Vector U32 4 := #v[y[0], y[1], y[2], y[3]]
  let s1 : Vector U32 4 := #v[y[5], y[6], y[7], y[4]]
  let s2 : Vector U32 4 := #v[y[10], y[11], y[8], y[9]]
  let s3 : Vector U32 4 := #v[y[15], y[12], y[13], y[14]]
  let z : Vector U32 16 := Vector.replicate 16 0
  let t := quarterround s0
  let z := (((z.set 0 t[0]).set 1 t[1]).set 2 t[2]).set 3 t[3]
  let t := quarterround s1
  let z := (((z.set 5 t[0]).set 6 t[1]).set 7 t[2]).set 4 t[3]
  let t := quarterround s2
  let z := (((z.set 10 t[0]).set 11 t[1]).set 8 t[2]).set 9 t[3]
  let t := quarterround s3
  (((z.set 15 t[0]).set 12 t[1]).set 13 t[2]).set 14 t[3]

/-- src/salsa20.rs:73-113. All sixteen elements of `y` are assigned, so its previous contents are not a parameter. -/
def columnround (x : Vector U32 16) : Vector U32 16 :=
  let s0 : Vector U32 4 := #v[x[0], x[4], x[8], x[12]]
  let s1 : Vector U32 4 := #v[x[5], x[9], x[13], x[1]]
  let s2 : Vector U32 4 := #v[x[10], x[14], x[2], x[6]]
  let s3 : Vector U32 4 := #v[x[15], x[3], x[7], x[11]]
  let y : Vector U32 16 := Vector.replicate 16 0
  let t := quarterround s0
  let y := (((y.set 0 t[0]).set 4 t[1]).set 8 t[2]).set 12 t[3]
  let t := quarterround s1
  let y := (((y.set 5 t[0]).set 9 t[1]).set 13 t[2]).set 1 t[3]
  let t := quarterround s2
  let y := (((y.set 10 t[0]).set 14 t[1]).set 2 t[2]).set 6 t[3]
  let t := quarterround s3
  (((y.set 15 t[0]).set 3 t[1]).set 7 t[2]).set 11 t[3]

/-- src/salsa20.rs:115-123 -/
def doubleround (x : Vector U32 16) : Vector U32 16 :=
  let t := columnround x
  rowround t

/-- src/salsa20.rs:125-131 -/
def littleendian (b : List U8) : M U32 := do
  let b0 ← idx b 0
  let b1 ← idx b 1
  let b2 ← idx b 2
  let b3 ← idx b 3
  return b0.setWidth 32 ||| (b1.setWidth 32 <<< 8) ||| (b2.setWidth 32 <<< 16) ||| (b3.setWidth 32 <<< 24)

/-- src/salsa20.rs:133-138. The four bytes stored at the front of the slice `y`. -/
def littleendian_inv (x : U32) (y : List U8) : M (List U8) := do
  let y ← upd y 0 (x.setWidth 8)
  let y ← upd y 1 ((x >>> 8).setWidth 8)
  let y ← upd y 2 ((x >>> 16).setWidth 8)
  upd y 3 ((x >>> 24).setWidth 8)

/-- src/salsa20.rs:164-207; `output` is the buffer before the call, the result is the buffer after it.
`from`/`to` stay below 65 and are computed in `Nat`. -/
def salsa20 (input : List U8) (rounds : Nat) (output : List U8) : M (List U8) := do
  let x ← forRange 0 16 (Vector.replicate 16 (0 : U32)) fun i x => do
    let from_ := i * 4
    let to := from_ + 4
    vupd x i (← littleendian (← slice input from_ to))
  let z ← forRange 0 rounds x fun _ z => return doubleround z
  forRange 0 16 output fun i output => do
    let x_elem ← vidx x i
    let z_elem ← vidx z i
    let from_ := i * 4
    let to := from_ + 4
    let piece ← littleendian_inv (wrapping_sum x_elem [z_elem]) (← slice output from_ to)
    copyFromSlice output from_ to piece

end Verif.Salsa20
