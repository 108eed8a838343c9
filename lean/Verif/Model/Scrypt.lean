import Verif.Model.Pbkdf2
import Verif.Model.Salsa20

/-! Model of `/repo/src/scrypt.rs`. -/

namespace Verif.Scrypt
open Verif Verif.Pbkdf2 Verif.Salsa20

/-- src/scrypt.rs:12 -/
def SALSA_ROUNDS : Nat := 4
/-- src/scrypt.rs:13 -/
def PBKDF2_ROUNDS : Nat := 1
/-- src/scrypt.rs:14 -/
def BLOCK_SIZE : Nat := 64

/-- src/scrypt.rs:20 -/
abbrev Block := List U8

/-- src/scrypt.rs:22-28 -/
inductive ScryptError where
  | RIsTooSmall
  | NIsTooSmall
  | NIsNotAPowerOfTwo
  | PIsTooSmall
deriving DecidableEq, Repr

/-- src/scrypt.rs:36-45 -/
def ScryptError.description : ScryptError → String
  | .RIsTooSmall => "`r` must be larger than 1"
  | .NIsTooSmall => "`n` must be larger than 1"
  | .NIsNotAPowerOfTwo => "`n` must be a power of two"
  | .PIsTooSmall => "`p` must be larger than 1"

/-- src/scrypt.rs:30-34 -/
def ScryptError.display (e : ScryptError) : String := "ScryptError: " ++ e.description

/-- src/scrypt.rs:67-71 -/
structure Scrypt where
  r : Nat
  n : Nat
  p : Nat
deriving DecidableEq, Repr

/-- src/scrypt.rs:73-75 -/
def block_xor (a b : List U8) : Block := List.zipWith (fun a b => a ^^^ b) a b

/-- src/scrypt.rs:77-89 -/
def integerify (T : Target) (x : List Block) : M U64 := do
  let last ← idx x (← T.sub x.length 1)
  let tail ← sliceFrom last (← T.sub last.length Salsa20.BLOCK_SIZE)
  let t0 ← idx tail 0
  let t1 ← idx tail 1
  let t2 ← idx tail 2
  let t3 ← idx tail 3
  let t4 ← idx tail 4
  let t5 ← idx tail 5
  let t6 ← idx tail 6
  let t7 ← idx tail 7
  return t0.setWidth 64
    ||| (t1.setWidth 64 <<< 8)
    ||| (t2.setWidth 64 <<< 16)
    ||| (t3.setWidth 64 <<< 24)
    ||| (t4.setWidth 64 <<< 32)
    ||| (t5.setWidth 64 <<< 40)
    ||| (t6.setWidth 64 <<< 48)
    ||| (t7.setWidth 64 <<< 56)

namespace Scrypt

/-- src/scrypt.rs:103-105 -/
def new (r n p : Nat) : Scrypt := { r, n, p }

/-- Step 2 of `block_mix` (src/scrypt.rs:142-146): the loop carries `x` and `y`. -/
def mixLoop (b : List Block) (x : Block) : M (Block × List Block) :=
  forEach b (x, []) fun b_elem (x, y) => do
    let t := block_xor x b_elem
    let x ← salsa20 t SALSA_ROUNDS x
    return (x, y ++ [x])

/-- Step 3 of `block_mix` (src/scrypt.rs:149-159): elements at even positions, then those at odd positions. -/
def shuffle (y : List Block) : List Block :=
  let (bs_head, bs_tail) := y.zipIdx.foldl (fun (bs_head, bs_tail) (y_elem, i) =>
    if i % 2 = 0 then (bs_head ++ [y_elem], bs_tail) else (bs_head, bs_tail ++ [y_elem])) (([] : List Block), ([] : List Block))
  bs_head ++ bs_tail

/-- src/scrypt.rs:107-160 -/
def block_mix (T : Target) (self : Scrypt) (b : List Block) : M (List Block) := do
  -- Step 1
  let x ← idx b (← T.sub (← T.mul 2 self.r) 1)
  -- Step 2
  T.reserve T.vecSize (← T.mul 2 self.r)
  let (_, y) ← mixLoop b x
  -- Step 3
  T.reserve T.vecSize (← T.mul 2 self.r)
  T.reserve T.vecSize self.r
  return shuffle y

/-- src/scrypt.rs:162-219 -/
def ro_mix (T : Target) (self : Scrypt) (b : List Block) : M (List Block) := do
  -- Step 1
  let x := b
  -- Step 2
  T.reserve T.vecSize self.n
  let (v, x) ← forRange 0 self.n (([] : List (List Block)), x) fun _i (v, x) => do
    let t ← self.block_mix T x
    return (v ++ [x], t)
  -- Step 3
  forRange 0 self.n x fun _i x => do
    let j ← T.rem ((← integerify T x).toNat % 2 ^ T.bits) self.n
    let vj ← idx v j
    let t := List.zipWith (fun x_block v_block => block_xor x_block v_block) x vj
    self.block_mix T t

/-- src/scrypt.rs:224-300; `out` is the buffer before the call; the result pairs the buffer after the call with the
returned `Result`. -/
def derive (T : Target) (self : Scrypt) (passphrase salt out : List U8) :
    M (List U8 × Except ScryptError Unit) := do
  if self.r < 1 then
    return (out, .error .RIsTooSmall)
  if self.n < 1 then
    return (out, .error .NIsTooSmall)
  if ((← T.sub self.n 1) &&& self.n) ≠ 0 then
    return (out, .error .NIsNotAPowerOfTwo)
  if self.p < 1 then
    return (out, .error .PIsTooSmall)
  -- Step 1
  let size ← T.mul (← T.mul (← T.mul self.p 2) BLOCK_SIZE) self.r
  T.reserve 1 size
  let raw_b := List.replicate size (0 : U8)
  let raw_b ← pbkdf2_sha256 T passphrase salt PBKDF2_ROUNDS raw_b
  let b ← (← chunksExact raw_b (← T.mul (2 * BLOCK_SIZE) self.r)).mapM (fun chunk => chunksExact chunk BLOCK_SIZE)
  -- Step 2
  let b ← b.mapM (fun elem => self.ro_mix T elem)
  -- Step 3
  let b_salt := b.flatten.flatten
  let out ← pbkdf2_sha256 T passphrase b_salt PBKDF2_ROUNDS out
  return (out, .ok ())

end Scrypt
end Verif.Scrypt
