import Verif.Model.AesCbc
import Verif.Model.Scrypt

/-!
The models of `/repo/src/pkcs7.rs` and `/repo/src/aes_cbc.rs`, and of `derive` in `/repo/src/scrypt.rs`, once more, with vectors that have a capacity. `Vec::push`, `Vec::append` and
`collect` take a larger piece of memory when the capacity is used up, and panic with `capacity overflow` when that would be more than `isize::MAX` bytes. How much
larger is a matter of the standard library, and here a parameter. Everything else is as in `Model/Pkcs7.lean`, `Model/AesCbc.lean` and
`Model/Scrypt.lean`. The other vectors of the crate are made with the capacity they need (`expand_key` in src/aes.rs, `block_mix` and `ro_mix` in
src/scrypt.rs) or collected from iterators that know their length (`block_xor`, src/scrypt.rs:73-75, 210-214 and 281-293).
-/

namespace Verif.Growing
open Verif Verif.Aes Verif.Pkcs7 Verif.AesCbc

/-- How a `Vec<u8>` grows: from the capacity and the size that is needed, the new capacity. It is at least the size, and at most the double of
the capacity, the size, or 8. It matters in src/pkcs7.rs:25, 38, 95 and 117, src/aes_cbc.rs:76 and 210, and src/scrypt.rs:296. -/
structure Policy where
  grow : Nat → Nat → Nat
  enough : ∀ cap need, need ≤ grow cap need
  atMost : ∀ cap need, grow cap need ≤ max (2 * cap) (max need 8)

/-- What the standard library does (`RawVec::grow_amortized`). No line of `/repo`: the standard library under src/pkcs7.rs:25 and the others. -/
def std : Policy where
  grow cap need := max (2 * cap) (max need 8)
  enough _ _ := by omega
  atMost _ _ := Nat.le_refl _

/-- A `Vec<u8>`: its elements and its capacity. As `storage` (src/pkcs7.rs:12) and `result` (src/aes_cbc.rs:73). -/
structure VecU8 where
  data : List U8
  cap : Nat

namespace VecU8

/-- `Vec::with_capacity(n)`. As in src/pkcs7.rs:19 and src/aes_cbc.rs:73. -/
def withCapacity (T : Target) (n : Nat) : M VecU8 := do
  T.reserve 1 n
  return ⟨[], n⟩

/-- `xs.to_vec()`, and `clone` of a vector with elements `xs`. As in src/pkcs7.rs:36 and 143, and src/aes_cbc.rs:98. -/
def ofSlice (T : Target) (xs : List U8) : M VecU8 := do
  T.reserve 1 xs.length
  return ⟨xs, xs.length⟩

/-- `v.reserve(extra)`: nothing happens while there is room. Under src/pkcs7.rs:25 and src/aes_cbc.rs:76. -/
def reserve (T : Target) (G : Policy) (v : VecU8) (extra : Nat) : M VecU8 :=
  if v.data.length + extra ≤ v.cap then return v
  else do
    T.reserve 1 (G.grow v.cap (v.data.length + extra))
    return { v with cap := G.grow v.cap (v.data.length + extra) }

/-- `v.push(x)`. As in src/pkcs7.rs:25 and 46. -/
def push (T : Target) (G : Policy) (v : VecU8) (x : U8) : M VecU8 := do
  let v ← v.reserve T G 1
  return { v with data := v.data ++ [x] }

/-- `v.append(&mut w)`, which empties `w`; `w` is not used afterwards. As in src/pkcs7.rs:38 and src/aes_cbc.rs:76. -/
def append (T : Target) (G : Policy) (v w : VecU8) : M VecU8 := do
  let v ← v.reserve T G w.data.length
  return { v with data := v.data ++ w.data }

/-- The rest of `collect()`: when the vector is full, `reserve(lower + 1)`, where `lower` is the lower bound that the iterator gives for what comes
after the current element; here a function of the number of elements that do come. Under src/scrypt.rs:296. -/
def extend (T : Target) (G : Policy) (lower : Nat → Nat) : VecU8 → List U8 → M VecU8
  | v, [] => return v
  | v, x :: xs => do
    let v ← if v.data.length = v.cap then v.reserve T G (lower xs.length + 1) else pure v
    extend T G lower { v with data := v.data ++ [x] } xs

/-- `iter.collect::<Vec<u8>>()` for an iterator that gives the elements `xs` without knowing their number. As in src/scrypt.rs:296. -/
def collect (T : Target) (G : Policy) (lower : Nat → Nat) : List U8 → M VecU8
  | [] => return ⟨[], 0⟩
  | x :: xs => do
    T.reserve 1 (max 8 (lower xs.length + 1))
    extend T G lower ⟨[x], max 8 (lower xs.length + 1)⟩ xs

/-- `v.clear()`: the capacity stays. As in src/pkcs7.rs:37. -/
def clear (v : VecU8) : VecU8 := { v with data := [] }

/-- `v.split_off(n)` for `0 < n`: the head keeps the capacity, the tail is a new vector. As in src/pkcs7.rs:35. -/
def splitOff (T : Target) (v : VecU8) (n : Nat) : M (VecU8 × VecU8) :=
  if n ≤ v.data.length then do
    let tail ← ofSlice T (v.data.drop n)
    return ({ v with data := v.data.take n }, tail)
  else throw .index

end VecU8

/-- src/pkcs7.rs:10-13 -/
structure Pad where
  block_size : Nat
  storage : VecU8

namespace Pad

/-- src/pkcs7.rs:16-21, with block sizes small enough to be doubled. -/
def new (T : Target) (block_size : Nat) : M Pad := do
  return { block_size, storage := ← VecU8.withCapacity T (2 * block_size) }

/-- src/pkcs7.rs:23-41 -/
def write (T : Target) (G : Policy) (self : Pad) (buf : List U8) : M (Pad × Option VecU8) := do
  let storage ← forEach buf self.storage fun elem storage => storage.push T G elem
  if storage.data.length < self.block_size then
    return ({ self with storage }, none)
  let tail_len ← T.rem storage.data.length self.block_size
  let tail_pos ← T.sub storage.data.length tail_len
  let (storage, tail) ← storage.splitOff T tail_pos
  let head ← VecU8.ofSlice T storage.data
  let storage ← storage.clear.append T G tail
  return ({ self with storage }, some head)

/-- src/pkcs7.rs:43-52. The `while` loop pushes the same byte until the block is full. -/
def flush (T : Target) (G : Policy) (self : Pad) : M (Pad × VecU8) := do
  let len ← T.sub self.block_size self.storage.data.length
  let storage ← forEach (List.replicate (self.block_size - self.storage.data.length) (BitVec.ofNat 8 len)) self.storage
    fun elem storage => storage.push T G elem
  let result ← VecU8.ofSlice T storage.data
  return ({ self with storage := storage.clear }, result)

end Pad

/-- src/pkcs7.rs:80-83 -/
structure Unpad where
  block_size : Nat
  storage : VecU8

namespace Unpad

/-- src/pkcs7.rs:86-91 -/
def new (T : Target) (block_size : Nat) : M Unpad := do
  return { block_size, storage := ← VecU8.withCapacity T (2 * block_size) }

/-- src/pkcs7.rs:93-120 -/
def write (T : Target) (G : Policy) (self : Unpad) (buf : List U8) : M (Unpad × Option VecU8) := do
  let storage ← forEach buf self.storage fun elem storage => storage.push T G elem
  if storage.data.length ≤ self.block_size then
    return ({ self with storage }, none)
  let tail_len ← T.rem storage.data.length self.block_size
  let tail_len := if tail_len = 0 then self.block_size else tail_len
  let tail_pos ← T.sub storage.data.length tail_len
  let (storage, tail) ← storage.splitOff T tail_pos
  let head ← VecU8.ofSlice T storage.data
  let storage ← storage.clear.append T G tail
  return ({ self with storage }, some head)

/-- src/pkcs7.rs:122-146 -/
def flush (T : Target) (self : Unpad) : M (Unpad × Except UnpadError VecU8) := do
  if self.storage.data.length ≠ self.block_size then
    return (self, .error .UnfinishedBlock)
  let len ← idx self.storage.data (← T.sub self.storage.data.length 1)
  if len > BitVec.ofNat 8 self.block_size then
    return (self, .error .InvalidPadding)
  let pad_off ← T.sub self.block_size len.toNat
  let is_same := (← sliceFrom self.storage.data pad_off).foldl (fun is_same b => is_same ||| (len ^^^ b)) (0 : U8)
  if is_same ≠ 0 then
    return (self, .error .InvalidPadding)
  let result ← VecU8.ofSlice T (← slice self.storage.data 0 pad_off)
  return ({ self with storage := self.storage.clear }, .ok result)

end Unpad

/-- src/aes_cbc.rs:38-42 -/
structure Cipher where
  aes : AES
  pad : Pad
  iv : Vector U8 16

namespace Cipher

/-- src/aes_cbc.rs:48-54 -/
def new (T : Target) (iv : Vector U8 16) : M Cipher := do
  return { aes := AES.new, pad := ← Pad.new T BLOCK_SIZE, iv }

/-- src/aes_cbc.rs:59-62 -/
def init (T : Target) (self : Cipher) (key : List U8) : M (Cipher × Except AESError Unit) := do
  let (aes, res) ← self.aes.init T key
  return ({ self with aes }, res)

/-- src/aes_cbc.rs:87-102 -/
def encrypt_block (T : Target) (self : Cipher) (b : List U8) : M (Cipher × Except AESError VecU8) := do
  let block ← arrayFromSlice BLOCK_SIZE b
  let block := xorBlock block self.iv
  match ← self.aes.encrypt block with
  | .ok new_iv => return ({ self with iv := new_iv }, .ok (← VecU8.ofSlice T new_iv.toList))
  | .error err => return (self, .error err)

/-- The loop of `write` (src/aes_cbc.rs:74-77). -/
def writeLoop (T : Target) (G : Policy) : List (List U8) → Cipher → VecU8 → M (Cipher × Except AESError VecU8)
  | [], self, result => return (self, .ok result)
  | block :: blocks, self, result => do
    let (self, r) ← self.encrypt_block T block
    match r with
    | .error e => return (self, .error e)
    | .ok ciphertext => writeLoop T G blocks self (← result.append T G ciphertext)

/-- src/aes_cbc.rs:65-79; `vec![]` has no capacity. -/
def write (T : Target) (G : Policy) (self : Cipher) (b : List U8) : M (Cipher × Except AESError VecU8) := do
  let (pad, blocks) ← self.pad.write T G b
  let self := { self with pad }
  match blocks with
  | none => return (self, .ok ⟨[], 0⟩)
  | some blocks => do
    let result ← VecU8.withCapacity T blocks.data.length
    writeLoop T G (← chunks blocks.data BLOCK_SIZE) self result

/-- src/aes_cbc.rs:82-85 -/
def flush (T : Target) (G : Policy) (self : Cipher) : M (Cipher × Except AESError VecU8) := do
  let (pad, block) ← self.pad.flush T G
  let self := { self with pad }
  self.encrypt_block T block.data

end Cipher

/-- src/aes_cbc.rs:133-138 -/
structure Decipher where
  aes : AES
  unpad : Unpad
  iv : Vector U8 16
  buffer : Pad

namespace Decipher

/-- src/aes_cbc.rs:169-176 -/
def new (T : Target) (iv : Vector U8 16) : M Decipher := do
  return { aes := AES.new, unpad := ← Unpad.new T BLOCK_SIZE, iv, buffer := ← Pad.new T BLOCK_SIZE }

/-- src/aes_cbc.rs:181-184 -/
def init (T : Target) (self : Decipher) (key : List U8) : M (Decipher × Except AESError Unit) := do
  let (aes, res) ← self.aes.init T key
  return ({ self with aes }, res)

/-- The loop of `write` (src/aes_cbc.rs:196-211). -/
def writeLoop (T : Target) (G : Policy) : List (List U8) → Decipher → VecU8 → M (Decipher × Except DecipherError VecU8)
  | [], self, padded_result => return (self, .ok padded_result)
  | ciphertext :: rest, self, padded_result => do
    let block ← arrayFromSlice BLOCK_SIZE ciphertext
    match ← self.aes.decrypt block with
    | .error err => return (self, .error (.AES err))
    | .ok cleartext => do
      let cleartext ← VecU8.ofSlice T (xorBlock cleartext self.iv).toList
      writeLoop T G rest { self with iv := block } (← padded_result.append T G cleartext)

/-- src/aes_cbc.rs:187-214 -/
def write (T : Target) (G : Policy) (self : Decipher) (b : List U8) : M (Decipher × Except DecipherError VecU8) := do
  let (buffer, blocks) ← self.buffer.write T G b
  let self := { self with buffer }
  match blocks with
  | none => return (self, .ok ⟨[], 0⟩)
  | some blocks => do
    let padded_result ← VecU8.withCapacity T blocks.data.length
    let (self, r) ← writeLoop T G (← chunks blocks.data BLOCK_SIZE) self padded_result
    match r with
    | .error e => return (self, .error e)
    | .ok padded_result => do
      let (unpad, res) ← self.unpad.write T G padded_result.data
      return ({ self with unpad }, .ok (res.getD ⟨[], 0⟩))

/-- src/aes_cbc.rs:217-222 -/
def flush (T : Target) (self : Decipher) : M (Decipher × Except DecipherError VecU8) := do
  let (unpad, r) ← self.unpad.flush T
  let self := { self with unpad }
  match r with
  | .error err => return (self, .error (.PKCS7 err))
  | .ok block => return (self, .ok block)

end Decipher

/-- src/scrypt.rs:224-300. `lower` is what `flatten().flatten()` says of the octets that are still to come, out of their number. -/
def derive (T : Target) (G : Policy) (lower : Nat → Nat) (self : Scrypt.Scrypt) (passphrase salt out : List U8) :
    M (List U8 × Except Scrypt.ScryptError Unit) := do
  if self.r < 1 then
    return (out, .error .RIsTooSmall)
  if self.n < 1 then
    return (out, .error .NIsTooSmall)
  if ((← T.sub self.n 1) &&& self.n) ≠ 0 then
    return (out, .error .NIsNotAPowerOfTwo)
  if self.p < 1 then
    return (out, .error .PIsTooSmall)
  -- Step 1
  let size ← T.mul (← T.mul (← T.mul self.p 2) Scrypt.BLOCK_SIZE) self.r
  T.reserve 1 size
  let raw_b := List.replicate size (0 : U8)
  let raw_b ← Pbkdf2.pbkdf2_sha256 T passphrase salt Scrypt.PBKDF2_ROUNDS raw_b
  let b ← (← chunksExact raw_b (← T.mul (2 * Scrypt.BLOCK_SIZE) self.r)).mapM (fun chunk => chunksExact chunk Scrypt.BLOCK_SIZE)
  -- Step 2
  let b ← b.mapM (fun elem => self.ro_mix T elem)
  -- Step 3
  let b_salt ← VecU8.collect T G lower b.flatten.flatten
  let out ← Pbkdf2.pbkdf2_sha256 T passphrase b_salt.data Scrypt.PBKDF2_ROUNDS out
  return (out, .ok ())

/-- What `flatten().flatten()` says on blocks of 64 octets: the rest of the current block. The iterator of src/scrypt.rs:296. -/
def restOfBlock (n : Nat) : Nat := n % 64

end Verif.Growing
