import Verif.Model.HeapCbc
import Verif.Props.GrowingRun

/-! Histories of calls on a `Cipher` or `Decipher` on the heap, used by the statements in `Verif.Props.MemoryCbc`. The caller reads what a call returns, and
drops it. -/

namespace Verif.Heap
open Verif Verif.Aes Verif.Pkcs7 Verif.AesCbc Verif.Growing Spec.Cbc

/-- The caller reads the result, and drops it. -/
def read {σ ε : Type} : σ × Except ε VecU8 → H (σ × Except ε (List U8))
  | (s, .error e) => return (s, .error e)
  | (s, .ok v) => do
    give v.cap
    return (s, .ok v.data)

/-- One call on a `Cipher`. -/
def cstep (T : Target) (G : Policy) (c : Growing.Cipher) : Call → H (Growing.Cipher × Except AESError (List U8))
  | .init key => do
    let (c, r) ← Cipher.init T c key
    return (c, r.map fun _ => [])
  | .write b => do read (← Cipher.write T G c b)
  | .flush => do read (← Cipher.flush T G c)

/-- One call on a `Decipher`. -/
def dstep (T : Target) (G : Policy) (d : Growing.Decipher) : Call → H (Growing.Decipher × Except DecipherError (List U8))
  | .init key => do
    let (d, r) ← Decipher.init T d key
    return (d, (r.map fun _ => []).mapError .AES)
  | .write b => do read (← Decipher.write T G d b)
  | .flush => do read (← Decipher.flush T d)

/-- A history of calls on the same `Cipher`. -/
def crun (T : Target) (G : Policy) : Growing.Cipher → List Call → H (Growing.Cipher × List (Except AESError (List U8)))
  | c, [] => return (c, [])
  | c, x :: xs => do
    let (c, r) ← cstep T G c x
    let (c, rs) ← crun T G c xs
    return (c, r :: rs)

/-- A history of calls on the same `Decipher`. -/
def drun (T : Target) (G : Policy) : Growing.Decipher → List Call → H (Growing.Decipher × List (Except DecipherError (List U8)))
  | d, [] => return (d, [])
  | d, x :: xs => do
    let (d, r) ← dstep T G d x
    let (d, rs) ← drun T G d xs
    return (d, r :: rs)

/-- A new `Cipher`, and a history of calls on it. -/
def csession (T : Target) (G : Policy) (iv : Vector U8 16) (calls : List Call) : H (Growing.Cipher × List (Except AESError (List U8))) := do
  crun T G (← Cipher.new T iv) calls

/-- A new `Decipher`, and a history of calls on it. -/
def dsession (T : Target) (G : Policy) (iv : Vector U8 16) (calls : List Call) : H (Growing.Decipher × List (Except DecipherError (List U8))) := do
  drun T G (← Decipher.new T iv) calls

end Verif.Heap
