import Verif.Spec.Hmac
import Verif.Spec.Multicollision

/-
The hash value inside of HMAC-SHA256 while it reads a message.
-/

namespace Spec.Sha256
open Spec

/-- The hash value after the key block and the whole blocks of `m`. -/
def inside (key m : List Byte) : State := hashAll initial ((hmacKey sha256 key).map (· ^^^ 0x36) ++ m)

/-- The hash value after the key block with which the digest of the inner hash is hashed once more. -/
def outside (key : List Byte) : State := hashAll initial ((hmacKey sha256 key).map (· ^^^ 0x5c))

end Spec.Sha256
