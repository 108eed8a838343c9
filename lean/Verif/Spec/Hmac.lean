import Verif.Spec.Sha256

/-
HMAC, written from RFC 2104 for a hash function with 64-byte blocks.
The hash is a parameter so that the same text describes HMAC over any such hash.
-/

namespace Spec

/-- The key as a 64-byte string: keys longer than a block are hashed first, then zeros are appended. -/
def hmacKey (hash : List Byte → List Byte) (key : List Byte) : List Byte :=
  let k := if key.length > 64 then hash key else key
  k ++ List.replicate (64 - k.length) 0

/-- `H(K XOR opad, H(K XOR ipad, text))` -/
def hmac (hash : List Byte → List Byte) (key text : List Byte) : List Byte :=
  let k := hmacKey hash key
  hash (k.map (· ^^^ 0x5c) ++ hash (k.map (· ^^^ 0x36) ++ text))

def hmacSha256 (key text : List Byte) : List Byte := hmac Sha256.sha256 key text

end Spec
