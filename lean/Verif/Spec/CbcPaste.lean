import Verif.Spec.Cbc

/-! What is known about each block of a ciphertext to someone who knows the message, and what other arrangements of such blocks
stand for. -/

namespace Spec.Cbc
open Spec

/-- A ciphertext block, the block (or initialization vector) that it came after, and the block of the padded message. -/
structure Seen where
  before : List Byte
  block : List Byte
  plain : List Byte

def seenBlocks : List Byte → List (List Byte) → List (List Byte) → List Seen
  | before, c :: cs, p :: ps => ⟨before, c, p⟩ :: seenBlocks c cs ps
  | _, _, _ => []

/-- The blocks of the ciphertext `c` of the message `m`, in order. -/
def seen (iv m c : List Byte) : List Seen := seenBlocks iv (blocks c) (blocks (pkcs7 16 m))

/-- What the blocks stand for, in this order and with this initialization vector: each message block, with the block that it was
encrypted after taken off and the block that it comes after now put on. -/
def opened : List Byte → List Seen → List Byte
  | _, [] => []
  | now, s :: ss => xorBytes (xorBytes s.plain s.before) now ++ opened s.block ss

end Spec.Cbc
