import Verif.Model.Heap

/-!
The models of `/repo/src/pkcs7.rs`, of `/repo/src/aes_cbc.rs` and of `init` in `/repo/src/aes.rs` once more, on the heap of `Model/Heap.lean`. The vectors are those of
`Model/Growing.lean`, with a capacity. A vector that is returned belongs to the caller.
-/

namespace Verif.Heap
open Verif Verif.Aes Verif.Pkcs7 Verif.AesCbc Verif.Growing

namespace VecU8

/-- `Vec::with_capacity(n)`. As in src/pkcs7.rs:19 and src/aes_cbc.rs:73. -/
def withCapacity (T : Target) (n : Nat) : H VecU8 := do
  let v ← lift (Growing.VecU8.withCapacity T n)
  take v.cap
  return v

/-- `xs.to_vec()`, and `clone` of a vector with elements `xs`. As in src/pkcs7.rs:36 and 143, and src/aes_cbc.rs:98. -/
def ofSlice (T : Target) (xs : List U8) : H VecU8 := do
  let v ← lift (Growing.VecU8.ofSlice T xs)
  take v.cap
  return v

/-- `v.reserve(extra)`: a vector that grows takes the new memory before it gives the old back. Under src/pkcs7.rs:25 and src/aes_cbc.rs:76. -/
def reserve (T : Target) (G : Policy) (v : VecU8) (extra : Nat) : H VecU8 := do
  let v' ← lift (Growing.VecU8.reserve T G v extra)
  if v'.cap ≠ v.cap then
    take v'.cap
    give v.cap
  return v'

/-- `v.push(x)`. As in src/pkcs7.rs:25 and 46. -/
def push (T : Target) (G : Policy) (v : VecU8) (x : U8) : H VecU8 := do
  let v ← reserve T G v 1
  return { v with data := v.data ++ [x] }

/-- `v.append(&mut w)`; `w` keeps its memory. As in src/pkcs7.rs:38 and src/aes_cbc.rs:76. -/
def append (T : Target) (G : Policy) (v w : VecU8) : H VecU8 := do
  let v ← reserve T G v w.data.length
  return { v with data := v.data ++ w.data }

/-- `v.split_off(n)` for `0 < n`. As in src/pkcs7.rs:35. -/
def splitOff (T : Target) (v : VecU8) (n : Nat) : H (VecU8 × VecU8) := do
  let (v, tail) ← lift (Growing.VecU8.splitOff T v n)
  take tail.cap
  return (v, tail)

end VecU8

namespace Pad

/-- src/pkcs7.rs:16-21 -/
def new (T : Target) (block_size : Nat) : H Growing.Pad := do
  return { block_size, storage := ← VecU8.withCapacity T (2 * block_size) }

/-- src/pkcs7.rs:23-41; `tail` goes at the end. -/
def write (T : Target) (G : Policy) (self : Growing.Pad) (buf : List U8) : H (Growing.Pad × Option VecU8) := do
  let storage ← forEach buf self.storage fun elem storage => VecU8.push T G storage elem
  if storage.data.length < self.block_size then
    return ({ self with storage }, none)
  let tail_len ← lift (T.rem storage.data.length self.block_size)
  let tail_pos ← lift (T.sub storage.data.length tail_len)
  let (storage, tail) ← VecU8.splitOff T storage tail_pos
  let head ← VecU8.ofSlice T storage.data
  let storage ← VecU8.append T G storage.clear tail
  give tail.cap
  return ({ self with storage }, some head)

/-- src/pkcs7.rs:43-52 -/
def flush (T : Target) (G : Policy) (self : Growing.Pad) : H (Growing.Pad × VecU8) := do
  let len ← lift (T.sub self.block_size self.storage.data.length)
  let storage ← forEach (List.replicate (self.block_size - self.storage.data.length) (BitVec.ofNat 8 len)) self.storage
    fun elem storage => VecU8.push T G storage elem
  let result ← VecU8.ofSlice T storage.data
  return ({ self with storage := storage.clear }, result)

end Pad

namespace Unpad

/-- src/pkcs7.rs:86-91 -/
def new (T : Target) (block_size : Nat) : H Growing.Unpad := do
  return { block_size, storage := ← VecU8.withCapacity T (2 * block_size) }

/-- src/pkcs7.rs:93-120; `tail` goes at the end. -/
def write (T : Target) (G : Policy) (self : Growing.Unpad) (buf : List U8) : H (Growing.Unpad × Option VecU8) := do
  let storage ← forEach buf self.storage fun elem storage => VecU8.push T G storage elem
  if storage.data.length ≤ self.block_size then
    return ({ self with storage }, none)
  let tail_len ← lift (T.rem storage.data.length self.block_size)
  let tail_len := if tail_len = 0 then self.block_size else tail_len
  let tail_pos ← lift (T.sub storage.data.length tail_len)
  let (storage, tail) ← VecU8.splitOff T storage tail_pos
  let head ← VecU8.ofSlice T storage.data
  let storage ← VecU8.append T G storage.clear tail
  give tail.cap
  return ({ self with storage }, some head)

/-- src/pkcs7.rs:122-146. The only vector is the result. -/
def flush (T : Target) (self : Growing.Unpad) : H (Growing.Unpad × Except UnpadError VecU8) := do
  let (self, r) ← lift (self.flush T)
  match r with
  | .error e => return (self, .error e)
  | .ok result => do
    take result.cap
    return (self, .ok result)

end Unpad

/-- The bytes of the round keys: `Vec::with_capacity(NB * (round_count + 1))` words (src/aes.rs:117). -/
def keyBytes (aes : AES) : Nat :=
  match aes.round_keys with
  | none => 0
  | some _ => 4 * (NB * (aes.round_count + 1))

/-- src/aes.rs:327-346. The new round keys are made before the old ones go. -/
def initAes (T : Target) (self : AES) (key : List U8) : H (AES × Except AESError Unit) := do
  let (aes, r) ← lift (self.init T key)
  match r with
  | .error e => return (aes, .error e)
  | .ok () => do
    take (keyBytes aes)
    give (keyBytes self)
    return (aes, .ok ())

namespace Cipher

/-- src/aes_cbc.rs:48-54 -/
def new (T : Target) (iv : Vector U8 16) : H Growing.Cipher := do
  return { aes := AES.new, pad := ← Pad.new T BLOCK_SIZE, iv }

/-- src/aes_cbc.rs:59-62 -/
def init (T : Target) (self : Growing.Cipher) (key : List U8) : H (Growing.Cipher × Except AESError Unit) := do
  let (aes, res) ← initAes T self.aes key
  return ({ self with aes }, res)

/-- src/aes_cbc.rs:87-102. The only vector is the result. -/
def encrypt_block (T : Target) (self : Growing.Cipher) (b : List U8) : H (Growing.Cipher × Except AESError VecU8) := do
  let (self, r) ← lift (self.encrypt_block T b)
  match r with
  | .error e => return (self, .error e)
  | .ok ciphertext => do
    take ciphertext.cap
    return (self, .ok ciphertext)

/-- The loop of `write` (src/aes_cbc.rs:74-77): `ciphertext` goes at the end of the body; on an error `result` goes. -/
def writeLoop (T : Target) (G : Policy) : List (List U8) → Growing.Cipher → VecU8 → H (Growing.Cipher × Except AESError VecU8)
  | [], self, result => return (self, .ok result)
  | block :: blocks, self, result => do
    let (self, r) ← encrypt_block T self block
    match r with
    | .error e => do
      give result.cap
      return (self, .error e)
    | .ok ciphertext => do
      let result ← VecU8.append T G result ciphertext
      give ciphertext.cap
      writeLoop T G blocks self result

/-- src/aes_cbc.rs:65-79; `blocks` goes at the end. -/
def write (T : Target) (G : Policy) (self : Growing.Cipher) (b : List U8) : H (Growing.Cipher × Except AESError VecU8) := do
  let (pad, blocks) ← Pad.write T G self.pad b
  let self := { self with pad }
  match blocks with
  | none => return (self, .ok ⟨[], 0⟩)
  | some blocks => do
    let result ← VecU8.withCapacity T blocks.data.length
    let (self, r) ← writeLoop T G (← lift (chunks blocks.data BLOCK_SIZE)) self result
    give blocks.cap
    return (self, r)

/-- src/aes_cbc.rs:82-85; `block` goes at the end. -/
def flush (T : Target) (G : Policy) (self : Growing.Cipher) : H (Growing.Cipher × Except AESError VecU8) := do
  let (pad, block) ← Pad.flush T G self.pad
  let self := { self with pad }
  let (self, r) ← encrypt_block T self block.data
  give block.cap
  return (self, r)

/-- What a `Cipher` has on the heap: its round keys and the octets it gathers. The fields of src/aes_cbc.rs:38-42. -/
def held (self : Growing.Cipher) : Nat := keyBytes self.aes + self.pad.storage.cap

/-- A `Cipher` goes: its fields (src/aes_cbc.rs:38-42) go in order. -/
def drop (self : Growing.Cipher) : H Unit := do
  give (keyBytes self.aes)
  give self.pad.storage.cap

end Cipher

namespace Decipher

/-- src/aes_cbc.rs:169-176 -/
def new (T : Target) (iv : Vector U8 16) : H Growing.Decipher := do
  return { aes := AES.new, unpad := ← Unpad.new T BLOCK_SIZE, iv, buffer := ← Pad.new T BLOCK_SIZE }

/-- src/aes_cbc.rs:181-184 -/
def init (T : Target) (self : Growing.Decipher) (key : List U8) : H (Growing.Decipher × Except AESError Unit) := do
  let (aes, res) ← initAes T self.aes key
  return ({ self with aes }, res)

/-- The loop of `write` (src/aes_cbc.rs:196-211): `cleartext.to_vec()` goes at the end of the statement; on an error `padded_result` goes. -/
def writeLoop (T : Target) (G : Policy) : List (List U8) → Growing.Decipher → VecU8 → H (Growing.Decipher × Except DecipherError VecU8)
  | [], self, padded_result => return (self, .ok padded_result)
  | ciphertext :: rest, self, padded_result => do
    let block ← lift (arrayFromSlice BLOCK_SIZE ciphertext)
    match ← lift (self.aes.decrypt block) with
    | .error err => do
      give padded_result.cap
      return (self, .error (.AES err))
    | .ok cleartext => do
      let cleartext ← VecU8.ofSlice T (xorBlock cleartext self.iv).toList
      let padded_result ← VecU8.append T G padded_result cleartext
      give cleartext.cap
      writeLoop T G rest { self with iv := block } padded_result

/-- src/aes_cbc.rs:187-214; `padded_result` and `blocks` go at the end. -/
def write (T : Target) (G : Policy) (self : Growing.Decipher) (b : List U8) : H (Growing.Decipher × Except DecipherError VecU8) := do
  let (buffer, blocks) ← Pad.write T G self.buffer b
  let self := { self with buffer }
  match blocks with
  | none => return (self, .ok ⟨[], 0⟩)
  | some blocks => do
    let padded_result ← VecU8.withCapacity T blocks.data.length
    let (self, r) ← writeLoop T G (← lift (chunks blocks.data BLOCK_SIZE)) self padded_result
    match r with
    | .error e => do
      give blocks.cap
      return (self, .error e)
    | .ok padded_result => do
      let (unpad, res) ← Unpad.write T G self.unpad padded_result.data
      give padded_result.cap
      give blocks.cap
      return ({ self with unpad }, .ok (res.getD ⟨[], 0⟩))

/-- src/aes_cbc.rs:217-222 -/
def flush (T : Target) (self : Growing.Decipher) : H (Growing.Decipher × Except DecipherError VecU8) := do
  let (unpad, r) ← Unpad.flush T self.unpad
  let self := { self with unpad }
  match r with
  | .error err => return (self, .error (.PKCS7 err))
  | .ok block => return (self, .ok block)

/-- What a `Decipher` has on the heap: its round keys, and the octets it gathers and keeps. The fields of src/aes_cbc.rs:133-138. -/
def held (self : Growing.Decipher) : Nat := keyBytes self.aes + self.buffer.storage.cap + self.unpad.storage.cap

/-- A `Decipher` goes: its fields (src/aes_cbc.rs:133-138) go in order. -/
def drop (self : Growing.Decipher) : H Unit := do
  give (keyBytes self.aes)
  give self.unpad.storage.cap
  give self.buffer.storage.cap

end Decipher
end Verif.Heap
