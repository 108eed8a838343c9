import Verif.Model.AesCbc
import Verif.Spec.CbcMachine

/-! Histories of calls on a `Cipher` or `Decipher` (`aes_cbc.rs`): the programs a user can write, used by the statements in
`Verif.Props.Cbc`. -/

namespace Verif.AesCbc
open Verif Verif.Aes Verif.Pkcs7 Spec.Cbc

/-- One call on a `Cipher`; the unit result of `init` is shown as no bytes. -/
def cstep (T : Target) (c : Cipher) : Call → M (Cipher × Except AESError (List U8))
  | .init key => do
    let (c, r) ← c.init T key
    return (c, r.map fun _ => [])
  | .write b => c.write T b
  | .flush => c.flush T

/-- One call on a `Decipher`; the unit result of `init` is shown as no bytes, its error as an AES error. -/
def dstep (T : Target) (d : Decipher) : Call → M (Decipher × Except DecipherError (List U8))
  | .init key => do
    let (d, r) ← d.init T key
    return (d, (r.map fun _ => []).mapError .AES)
  | .write b => d.write T b
  | .flush => d.flush T

/-- A history of calls on the same `Cipher`, and what they return. -/
def crun (T : Target) : Cipher → List Call → M (Cipher × List (Except AESError (List U8)))
  | c, [] => return (c, [])
  | c, x :: xs => do
    let (c, r) ← cstep T c x
    let (c, rs) ← crun T c xs
    return (c, r :: rs)

/-- A history of calls on the same `Decipher`, and what they return. -/
def drun (T : Target) : Decipher → List Call → M (Decipher × List (Except DecipherError (List U8)))
  | d, [] => return (d, [])
  | d, x :: xs => do
    let (d, r) ← dstep T d x
    let (d, rs) ← drun T d xs
    return (d, r :: rs)

/-- The model's error values, by their names in the specification. -/
def errA : AESError → Err
  | .InvalidKeySize => .invalidKeySize
  | .NotInitialized => .notInitialized

/-- The model's error values, by their names in the specification. -/
def errD : DecipherError → Err
  | .AES e => errA e
  | .PKCS7 .UnfinishedBlock => .unfinishedBlock
  | .PKCS7 .InvalidPadding => .invalidPadding

end Verif.AesCbc
