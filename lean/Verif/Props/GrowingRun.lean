import Verif.Model.Growing
import Verif.Props.CbcRun

/-! Histories of calls on a `Cipher` or `Decipher` whose vectors have a capacity, used by the statements in `Verif.Props.Growing`. -/

namespace Verif.Growing
open Verif Verif.Aes Verif.Pkcs7 Verif.AesCbc Spec.Cbc

/-- One call on a `Cipher`; the unit result of `init` is shown as no bytes. -/
def cstep (T : Target) (G : Policy) (c : Cipher) : Call → M (Cipher × Except AESError (List U8))
  | .init key => do
    let (c, r) ← c.init T key
    return (c, r.map fun _ => [])
  | .write b => do
    let (c, r) ← c.write T G b
    return (c, r.map (·.data))
  | .flush => do
    let (c, r) ← c.flush T G
    return (c, r.map (·.data))

/-- One call on a `Decipher`; the unit result of `init` is shown as no bytes, its error as an AES error. -/
def dstep (T : Target) (G : Policy) (d : Decipher) : Call → M (Decipher × Except DecipherError (List U8))
  | .init key => do
    let (d, r) ← d.init T key
    return (d, (r.map fun _ => []).mapError .AES)
  | .write b => do
    let (d, r) ← d.write T G b
    return (d, r.map (·.data))
  | .flush => do
    let (d, r) ← d.flush T
    return (d, r.map (·.data))

/-- A history of calls on the same `Cipher`, and what they return. -/
def crun (T : Target) (G : Policy) : Cipher → List Call → M (Cipher × List (Except AESError (List U8)))
  | c, [] => return (c, [])
  | c, x :: xs => do
    let (c, r) ← cstep T G c x
    let (c, rs) ← crun T G c xs
    return (c, r :: rs)

/-- A history of calls on the same `Decipher`, and what they return. -/
def drun (T : Target) (G : Policy) : Decipher → List Call → M (Decipher × List (Except DecipherError (List U8)))
  | d, [] => return (d, [])
  | d, x :: xs => do
    let (d, r) ← dstep T G d x
    let (d, rs) ← drun T G d xs
    return (d, r :: rs)

/-- A new `Cipher`, and a history of calls on it. -/
def csession (T : Target) (G : Policy) (iv : Vector U8 16) (calls : List Call) : M (Cipher × List (Except AESError (List U8))) := do
  crun T G (← Cipher.new T iv) calls

/-- A new `Decipher`, and a history of calls on it. -/
def dsession (T : Target) (G : Policy) (iv : Vector U8 16) (calls : List Call) : M (Decipher × List (Except DecipherError (List U8))) := do
  drun T G (← Decipher.new T iv) calls

end Verif.Growing
