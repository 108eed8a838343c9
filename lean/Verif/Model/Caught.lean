import Verif.Model.Growing

/-!
`Cipher` and `Decipher` of `/repo/src/aes_cbc.rs`, `Pad` and `Unpad` of `/repo/src/pkcs7.rs` once more, with vectors that have a capacity as in `Model/Growing.lean`, and so that
a panic can be caught and the object used again: what was assigned to the fields before the panic stays assigned.
-/

namespace Verif.Growing.Caught
open Verif Verif.Aes Verif.Pkcs7 Verif.AesCbc Verif.Growing

/-- A method with `&mut self`: from the object to the outcome and the object afterwards, also if the outcome is a panic.
As `write` and `flush` in src/pkcs7.rs:23-52 and src/aes_cbc.rs:65-85. -/
def U (σ α : Type) : Type := σ → Except Panic α × σ

/-- Statements one after another, up to the first panic. As in src/pkcs7.rs:43-52. -/
instance {σ : Type} : Monad (U σ) where
  pure a := fun s => (.ok a, s)
  bind m f := fun s => match m s with
    | (.ok a, s) => f a s
    | (.error p, s) => (.error p, s)

/-- An expression that does not assign to the object. As `self.storage.len() % self.block_size` (src/pkcs7.rs:32). -/
def ofM {σ α : Type} (m : M α) : U σ α := fun s => (m, s)

/-- Reading `self`. As `self.storage` (src/pkcs7.rs:28). -/
def self {σ : Type} : U σ σ := fun s => (.ok s, s)

/-- Assigning to fields of `self`. As `self.iv = new_iv` (src/aes_cbc.rs:97). -/
def assign {σ : Type} (s : σ) : U σ Unit := fun _ => (.ok (), s)

namespace Pad

/-- The loop `for &elem in buf { self.storage.push(elem); }` (src/pkcs7.rs:24-26). -/
def pushes (T : Target) (G : Policy) : List U8 → U Growing.Pad Unit
  | [] => return ()
  | elem :: buf => do
    let me ← self
    let storage ← ofM (me.storage.push T G elem)
    assign { me with storage }
    pushes T G buf

/-- src/pkcs7.rs:23-41 -/
def write (T : Target) (G : Policy) (buf : List U8) : U Growing.Pad (Option VecU8) := do
  pushes T G buf
  let me ← self
  if me.storage.data.length < me.block_size then
    return none
  else do
    let tail_len ← ofM (T.rem me.storage.data.length me.block_size)
    let tail_pos ← ofM (T.sub me.storage.data.length tail_len)
    let split ← ofM (me.storage.splitOff T tail_pos)
    assign { me with storage := split.1 }
    let head ← ofM (VecU8.ofSlice T split.1.data)
    assign { me with storage := split.1.clear }
    let storage ← ofM (split.1.clear.append T G split.2)
    assign { me with storage }
    return some head

/-- src/pkcs7.rs:43-52. The `while` loop pushes the same byte until the block is full. -/
def flush (T : Target) (G : Policy) : U Growing.Pad VecU8 := do
  let me ← self
  let len ← ofM (T.sub me.block_size me.storage.data.length)
  pushes T G (List.replicate (me.block_size - me.storage.data.length) (BitVec.ofNat 8 len))
  let me ← self
  let result ← ofM (VecU8.ofSlice T me.storage.data)
  assign { me with storage := me.storage.clear }
  return result

end Pad

namespace Cipher

/-- A method of the field `pad`. As `self.pad.write(b)` (src/aes_cbc.rs:66). -/
def onPad {α : Type} (m : U Growing.Pad α) : U Growing.Cipher α := fun c => ((m c.pad).1, { c with pad := (m c.pad).2 })

/-- src/aes_cbc.rs:59-62 -/
def init (T : Target) (key : List U8) : U Growing.Cipher (Except AESError Unit) := do
  let me ← self
  let res ← ofM (me.aes.init T key)
  assign { me with aes := res.1 }
  return res.2

/-- src/aes_cbc.rs:87-102 -/
def encrypt_block (T : Target) (b : List U8) : U Growing.Cipher (Except AESError VecU8) := do
  let me ← self
  let block ← ofM (arrayFromSlice BLOCK_SIZE b)
  match ← ofM (me.aes.encrypt (AesCbc.xorBlock block me.iv)) with
  | .ok new_iv => do
    assign { me with iv := new_iv }
    let out ← ofM (VecU8.ofSlice T new_iv.toList)
    return .ok out
  | .error err => return .error err

/-- The loop of `write` (src/aes_cbc.rs:74-77). -/
def writeLoop (T : Target) (G : Policy) : List (List U8) → VecU8 → U Growing.Cipher (Except AESError VecU8)
  | [], result => return .ok result
  | block :: blocks, result => do
    match ← encrypt_block T block with
    | .error e => return .error e
    | .ok ciphertext => do
      let result ← ofM (result.append T G ciphertext)
      writeLoop T G blocks result

/-- src/aes_cbc.rs:65-79; `vec![]` has no capacity. -/
def write (T : Target) (G : Policy) (b : List U8) : U Growing.Cipher (Except AESError VecU8) := do
  match ← onPad (Pad.write T G b) with
  | none => return .ok ⟨[], 0⟩
  | some blocks => do
    let result ← ofM (VecU8.withCapacity T blocks.data.length)
    let blocks ← ofM (chunks blocks.data BLOCK_SIZE)
    writeLoop T G blocks result

/-- src/aes_cbc.rs:82-85 -/
def flush (T : Target) (G : Policy) : U Growing.Cipher (Except AESError VecU8) := do
  let block ← onPad (Pad.flush T G)
  encrypt_block T block.data

end Cipher

namespace Unpad

/-- The loop `for &elem in buf { self.storage.push(elem); }` (src/pkcs7.rs:94-96). -/
def pushes (T : Target) (G : Policy) : List U8 → U Growing.Unpad Unit
  | [] => return ()
  | elem :: buf => do
    let me ← self
    let storage ← ofM (me.storage.push T G elem)
    assign { me with storage }
    pushes T G buf

/-- src/pkcs7.rs:93-120 -/
def write (T : Target) (G : Policy) (buf : List U8) : U Growing.Unpad (Option VecU8) := do
  pushes T G buf
  let me ← self
  if me.storage.data.length ≤ me.block_size then
    return none
  else do
    let tail_len ← ofM (T.rem me.storage.data.length me.block_size)
    let tail_pos ← ofM (T.sub me.storage.data.length (if tail_len = 0 then me.block_size else tail_len))
    let split ← ofM (me.storage.splitOff T tail_pos)
    assign { me with storage := split.1 }
    let head ← ofM (VecU8.ofSlice T split.1.data)
    assign { me with storage := split.1.clear }
    let storage ← ofM (split.1.clear.append T G split.2)
    assign { me with storage }
    return some head

/-- src/pkcs7.rs:122-146. Simplification: it assigns only at its end, to `storage`, so it is the method of `Model/Growing.lean`, and a panic leaves everything as it was. -/
def flush (T : Target) : U Growing.Unpad (Except UnpadError VecU8) := do
  let me ← self
  let res ← ofM (me.flush T)
  assign res.1
  return res.2

end Unpad

namespace Decipher

/-- A method of the field `buffer`. As `self.buffer.write(b)` (src/aes_cbc.rs:188). -/
def onBuffer {α : Type} (m : U Growing.Pad α) : U Growing.Decipher α := fun d => ((m d.buffer).1, { d with buffer := (m d.buffer).2 })

/-- A method of the field `unpad`. As `self.unpad.write(&padded_result)` (src/aes_cbc.rs:213). -/
def onUnpad {α : Type} (m : U Growing.Unpad α) : U Growing.Decipher α := fun d => ((m d.unpad).1, { d with unpad := (m d.unpad).2 })

/-- src/aes_cbc.rs:181-184 -/
def init (T : Target) (key : List U8) : U Growing.Decipher (Except AESError Unit) := do
  let me ← self
  let res ← ofM (me.aes.init T key)
  assign { me with aes := res.1 }
  return res.2

/-- The loop of `write` (src/aes_cbc.rs:196-211). -/
def writeLoop (T : Target) (G : Policy) : List (List U8) → VecU8 → U Growing.Decipher (Except DecipherError VecU8)
  | [], padded_result => return .ok padded_result
  | ciphertext :: rest, padded_result => do
    let me ← self
    let block ← ofM (arrayFromSlice BLOCK_SIZE ciphertext)
    match ← ofM (me.aes.decrypt block) with
    | .error err => return .error (.AES err)
    | .ok cleartext => do
      assign { me with iv := block }
      let cleartext ← ofM (VecU8.ofSlice T (xorBlock cleartext me.iv).toList)
      let padded_result ← ofM (padded_result.append T G cleartext)
      writeLoop T G rest padded_result

/-- src/aes_cbc.rs:187-214 -/
def write (T : Target) (G : Policy) (b : List U8) : U Growing.Decipher (Except DecipherError VecU8) := do
  match ← onBuffer (Pad.write T G b) with
  | none => return .ok ⟨[], 0⟩
  | some blocks => do
    let padded_result ← ofM (VecU8.withCapacity T blocks.data.length)
    let blocks ← ofM (chunks blocks.data BLOCK_SIZE)
    match ← writeLoop T G blocks padded_result with
    | .error e => return .error e
    | .ok padded_result => do
      let res ← onUnpad (Unpad.write T G padded_result.data)
      return .ok (res.getD ⟨[], 0⟩)

/-- src/aes_cbc.rs:217-222 -/
def flush (T : Target) : U Growing.Decipher (Except DecipherError VecU8) := do
  match ← onUnpad (Unpad.flush T) with
  | .error err => return .error (.PKCS7 err)
  | .ok block => return .ok block

end Decipher
end Verif.Growing.Caught
