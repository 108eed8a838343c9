import Verif.Model.AesCbc
import Verif.Model.Scrypt

/-! What `#[derive(Debug, PartialEq)]` makes of the four error types: `{:?}` writes the name of the variant and, in brackets, its
field; `==` compares the variants and then the fields. Simplification: `{:#?}`, which spreads the same over several lines, is left out. -/

namespace Verif

/-- src/aes.rs:261-269, `Debug` -/
def Aes.AESError.debug : Aes.AESError → String
  | .InvalidKeySize => "InvalidKeySize"
  | .NotInitialized => "NotInitialized"

/-- src/aes.rs:261-269, `PartialEq` -/
def Aes.AESError.eq : Aes.AESError → Aes.AESError → Bool
  | .InvalidKeySize, .InvalidKeySize => true
  | .NotInitialized, .NotInitialized => true
  | _, _ => false

/-- src/pkcs7.rs:56-63, `Debug` -/
def Pkcs7.UnpadError.debug : Pkcs7.UnpadError → String
  | .UnfinishedBlock => "UnfinishedBlock"
  | .InvalidPadding => "InvalidPadding"

/-- src/pkcs7.rs:56-63, `PartialEq` -/
def Pkcs7.UnpadError.eq : Pkcs7.UnpadError → Pkcs7.UnpadError → Bool
  | .UnfinishedBlock, .UnfinishedBlock => true
  | .InvalidPadding, .InvalidPadding => true
  | _, _ => false

/-- src/aes_cbc.rs:141-147, `Debug` -/
def AesCbc.DecipherError.debug : AesCbc.DecipherError → String
  | .AES e => "AES(" ++ e.debug ++ ")"
  | .PKCS7 e => "PKCS7(" ++ e.debug ++ ")"

/-- src/aes_cbc.rs:141-147, `PartialEq` -/
def AesCbc.DecipherError.eq : AesCbc.DecipherError → AesCbc.DecipherError → Bool
  | .AES a, .AES b => a.eq b
  | .PKCS7 a, .PKCS7 b => a.eq b
  | _, _ => false

/-- src/scrypt.rs:22-28, `Debug` -/
def Scrypt.ScryptError.debug : Scrypt.ScryptError → String
  | .RIsTooSmall => "RIsTooSmall"
  | .NIsTooSmall => "NIsTooSmall"
  | .NIsNotAPowerOfTwo => "NIsNotAPowerOfTwo"
  | .PIsTooSmall => "PIsTooSmall"

/-- src/scrypt.rs:22-28, `PartialEq` -/
def Scrypt.ScryptError.eq : Scrypt.ScryptError → Scrypt.ScryptError → Bool
  | .RIsTooSmall, .RIsTooSmall => true
  | .NIsTooSmall, .NIsTooSmall => true
  | .NIsNotAPowerOfTwo, .NIsNotAPowerOfTwo => true
  | .PIsTooSmall, .PIsTooSmall => true
  | _, _ => false

end Verif
