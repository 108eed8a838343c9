import Verif.Text.Stage
import Verif.Text.Files

/-! The characters of the files. -/

namespace Verif.Text.Chars

set_option maxRecDepth 100000

chars lib := Files.lib
chars common := Files.common
chars sha256 := Files.sha256
chars hmac := Files.hmac
chars pbkdf2 := Files.pbkdf2
chars salsa20 := Files.salsa20
chars scrypt := Files.scrypt
chars pkcs7 := Files.pkcs7
chars aes := Files.aes
chars aes_cbc := Files.aes_cbc

end Verif.Text.Chars
