import Verif.Spec.CbcMachine

/-
How many times the block cipher is used by the streaming CBC encryptor and decryptor.
-/

namespace Spec.Cbc
open Spec

/-- The blocks that an answer of the encryptor took: one for each block of ciphertext, and one to find out that there is no key. -/
def answerBlocks : Except Err (List Byte) → Nat
  | .ok ciphertext => ciphertext.length / 16
  | .error .notInitialized => 1
  | .error _ => 0

/-- The blocks that a call on the decryptor takes: one for each block of ciphertext that is complete, but only the first of them if there is
no key. -/
def Dec.callBlocks (d : Dec) : Call → Nat
  | .init _ => 0
  | .write b => if d.key.isSome then (d.pending.length + b.length) / 16 else min 1 ((d.pending.length + b.length) / 16)
  | .flush => 0

/-- The blocks that a history of calls on the decryptor takes. -/
def Dec.blocks : Dec → List Call → Nat
  | _, [] => 0
  | d, c :: cs => d.callBlocks c + (d.step c).1.blocks cs

/-- Calls of `init`. -/
def isInit : Call → Bool
  | .init _ => true
  | _ => false

end Spec.Cbc
