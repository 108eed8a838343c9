import Verif.Model.Aes
import Verif.Model.Pkcs7

/-! Model of `/repo/src/aes_cbc.rs`. -/

namespace Verif.AesCbc
open Verif Verif.Aes Verif.Pkcs7

/-- `for (elem, iv_elem) in block.iter_mut().zip(iv.iter()) { *elem ^= iv_elem; }` on two 16-byte arrays
(src/aes_cbc.rs:91-93 and 205-207). -/
def xorBlock (block iv : Vector U8 16) : Vector U8 16 :=
  Vector.zipWith (fun elem iv_elem => elem ^^^ iv_elem) block iv

/-- src/aes_cbc.rs:38-42 -/
structure Cipher where
  aes : AES
  pad : Pad
  iv : Vector U8 16
deriving DecidableEq, Repr

namespace Cipher

/-- src/aes_cbc.rs:48-54 -/
def new (iv : Vector U8 16) : Cipher := { aes := AES.new, pad := Pad.new BLOCK_SIZE, iv }

/-- src/aes_cbc.rs:59-62 -/
def init (T : Target) (self : Cipher) (key : List U8) : M (Cipher × Except AESError Unit) := do
  let (aes, res) ← self.aes.init T key
  let self := { self with aes }
  match res with
  | .error e => return (self, .error e)
  | .ok () => return (self, .ok ())

/-- src/aes_cbc.rs:87-102 -/
def encrypt_block (self : Cipher) (b : List U8) : M (Cipher × Except AESError (List U8)) := do
  let block ← arrayFromSlice BLOCK_SIZE b
  let block := xorBlock block self.iv
  match ← self.aes.encrypt block with
  | .ok new_iv => return ({ self with iv := new_iv }, .ok new_iv.toList)
  | .error err => return (self, .error err)

/-- The loop of `write` (src/aes_cbc.rs:74-77); the `?` operator leaves the loop at the first error. -/
def writeLoop : List (List U8) → Cipher → List U8 → M (Cipher × Except AESError (List U8))
  | [], self, result => return (self, .ok result)
  | block :: blocks, self, result => do
    let (self, r) ← self.encrypt_block block
    match r with
    | .error e => return (self, .error e)
    | .ok ciphertext => writeLoop blocks self (result ++ ciphertext)

/-- src/aes_cbc.rs:65-79 -/
def write (T : Target) (self : Cipher) (b : List U8) : M (Cipher × Except AESError (List U8)) := do
  let (pad, blocks) ← self.pad.write T b
  let self := { self with pad }
  match blocks with
  | none => return (self, .ok [])
  | some blocks => writeLoop (← chunks blocks BLOCK_SIZE) self []

/-- src/aes_cbc.rs:82-85 -/
def flush (T : Target) (self : Cipher) : M (Cipher × Except AESError (List U8)) := do
  let (pad, block) ← self.pad.flush T
  let self := { self with pad }
  self.encrypt_block block

end Cipher

/-- src/aes_cbc.rs:133-138 -/
structure Decipher where
  aes : AES
  unpad : Unpad
  iv : Vector U8 16
  buffer : Pad
deriving DecidableEq, Repr

/-- src/aes_cbc.rs:142-147 -/
inductive DecipherError where
  | AES (e : AESError)
  | PKCS7 (e : UnpadError)
deriving DecidableEq, Repr

/-- src/aes_cbc.rs:155-163 -/
def DecipherError.description : DecipherError → String
  | .AES err => err.description
  | .PKCS7 err => err.description

/-- src/aes_cbc.rs:149-153 -/
def DecipherError.display (e : DecipherError) : String := "DecipherError: " ++ e.description

namespace Decipher

/-- src/aes_cbc.rs:169-176 -/
def new (iv : Vector U8 16) : Decipher :=
  { aes := AES.new, unpad := Unpad.new BLOCK_SIZE, iv, buffer := Pad.new BLOCK_SIZE }

/-- src/aes_cbc.rs:181-184 -/
def init (T : Target) (self : Decipher) (key : List U8) : M (Decipher × Except AESError Unit) := do
  let (aes, res) ← self.aes.init T key
  let self := { self with aes }
  match res with
  | .error e => return (self, .error e)
  | .ok () => return (self, .ok ())

/-- The loop of `write` (src/aes_cbc.rs:196-211). -/
def writeLoop : List (List U8) → Decipher → List U8 → M (Decipher × Except DecipherError (List U8))
  | [], self, padded_result => return (self, .ok padded_result)
  | ciphertext :: rest, self, padded_result => do
    let block ← arrayFromSlice BLOCK_SIZE ciphertext
    match ← self.aes.decrypt block with
    | .error err => return (self, .error (.AES err))
    | .ok cleartext =>
      let cleartext := xorBlock cleartext self.iv
      writeLoop rest { self with iv := block } (padded_result ++ cleartext.toList)

/-- src/aes_cbc.rs:187-214 -/
def write (T : Target) (self : Decipher) (b : List U8) : M (Decipher × Except DecipherError (List U8)) := do
  let (buffer, blocks) ← self.buffer.write T b
  let self := { self with buffer }
  match blocks with
  | none => return (self, .ok [])
  | some blocks => do
    let (self, r) ← writeLoop (← chunks blocks BLOCK_SIZE) self []
    match r with
    | .error e => return (self, .error e)
    | .ok padded_result => do
      let (unpad, res) ← self.unpad.write T padded_result
      return ({ self with unpad }, .ok (res.getD []))

/-- src/aes_cbc.rs:217-222 -/
def flush (T : Target) (self : Decipher) : M (Decipher × Except DecipherError (List U8)) := do
  let (unpad, r) ← self.unpad.flush T
  let self := { self with unpad }
  match r with
  | .error err => return (self, .error (.PKCS7 err))
  | .ok block => return (self, .ok block)

end Decipher
end Verif.AesCbc
