import Verif.Spec.Cbc

/-! The changes to a message that CBC mode undoes, and the message whose ciphertext is two ciphertexts put together. -/

namespace Spec.Cbc
open Spec

/-- The message with the two initialization vectors added to its first block. -/
def moved (iv iv' m : List Byte) : List Byte := xorBytes (xorBytes (m.take 16) iv) iv' ++ m.drop 16

/-- The padded message `m₁`, and after it `m₂` with the initialization vector and `t`, the last block of the ciphertext of `m₁`,
added to its first block. -/
def joined (iv t m₁ m₂ : List Byte) : List Byte := pkcs7 16 m₁ ++ moved iv t m₂

end Spec.Cbc
