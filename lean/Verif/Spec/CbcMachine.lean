import Verif.Spec.Cbc

/-
The streaming CBC encryptor and decryptor as abstract machines: which bytes are held back between calls, what every call
answers, and what an unsuccessful call leaves behind.  Everything is said with the CBC and PKCS#7 functions of `Spec.Cbc`.
-/

namespace Spec.Cbc
open Spec

inductive Err where
  | invalidKeySize
  | notInitialized
  | unfinishedBlock
  | invalidPadding
deriving DecidableEq

inductive Call where
  | init (key : List Byte)
  | write (b : List Byte)
  | flush
deriving DecidableEq

/-- AES keys have 128, 192 or 256 bits. -/
def validKey (key : List Byte) : Prop := key.length = 16 ∨ key.length = 24 ∨ key.length = 32

instance (key : List Byte) : Decidable (validKey key) := by unfold validKey; infer_instance

/-- What remains of an octet string after its complete blocks. -/
def tail (s : List Byte) : List Byte := s.drop (16 * (s.length / 16))

/-- The encryptor: the current key, the chaining block, and the incomplete block received so far. -/
structure Enc where
  key : Option (List Byte)
  iv : List Byte
  pending : List Byte

/-- One call on the encryptor. -/
def Enc.step (e : Enc) : Call → Enc × Except Err (List Byte)
  | .init key =>
    if validKey key then ({ e with key := some key }, .ok [])
    else (e, .error .invalidKeySize)
  | .write b =>
    if (e.pending ++ b).length < 16 then ({ e with pending := e.pending ++ b }, .ok [])
    else match e.key with
      | none => ({ e with pending := tail (e.pending ++ b) }, .error .notInitialized)
      | some key =>
        ({ e with pending := tail (e.pending ++ b), iv := lastBlock e.iv (encrypt key e.iv (e.pending ++ b)) },
          .ok (encrypt key e.iv (e.pending ++ b)))
  | .flush =>
    match e.key with
    | none => ({ e with pending := [] }, .error .notInitialized)
    | some key =>
      ({ e with pending := [], iv := encrypt key e.iv (pkcs7 16 e.pending) }, .ok (encrypt key e.iv (pkcs7 16 e.pending)))

/-- The answers of the encryptor to a history of calls. -/
def Enc.run : Enc → List Call → Enc × List (Except Err (List Byte))
  | e, [] => (e, [])
  | e, c :: cs => ((e.step c).1.run cs).map id ((e.step c).2 :: ·)

/-- The decryptor: the current key, the chaining block, the incomplete ciphertext block received so far, and the last
decrypted block, which is held back because it may be the one with the padding. -/
structure Dec where
  key : Option (List Byte)
  iv : List Byte
  pending : List Byte
  held : List Byte

/-- One call on the decryptor. -/
def Dec.step (d : Dec) : Call → Dec × Except Err (List Byte)
  | .init key =>
    if validKey key then ({ d with key := some key }, .ok [])
    else (d, .error .invalidKeySize)
  | .write b =>
    if (d.pending ++ b).length < 16 then ({ d with pending := d.pending ++ b }, .ok [])
    else match d.key with
      | none => ({ d with pending := tail (d.pending ++ b) }, .error .notInitialized)
      | some key =>
        let plain := d.held ++ decrypt key d.iv (d.pending ++ b)
        ({ d with pending := tail (d.pending ++ b), iv := lastBlock d.iv (d.pending ++ b),
                  held := plain.drop (plain.length - 16) },
          .ok (plain.take (plain.length - 16)))
  | .flush =>
    match d.held.getLast? with
    | none => (d, .error .unfinishedBlock)
    | some v =>
      if v.toNat ≤ 16 ∧ ∀ b ∈ d.held.drop (16 - v.toNat), b = v
      then ({ d with held := [] }, .ok (d.held.take (16 - v.toNat)))
      else (d, .error .invalidPadding)

/-- The answers of the decryptor to a history of calls. -/
def Dec.run : Dec → List Call → Dec × List (Except Err (List Byte))
  | d, [] => (d, [])
  | d, c :: cs => ((d.step c).1.run cs).map id ((d.step c).2 :: ·)

end Spec.Cbc
