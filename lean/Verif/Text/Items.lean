import Verif.Text.Chars

/-! The items of the files. -/

namespace Verif.Text.Items

set_option maxRecDepth 100000

stageSome lib : List Item := parseFile Chars.lib
stageSome common : List Item := parseFile Chars.common
stageSome sha256 : List Item := parseFile Chars.sha256
stageSome hmac : List Item := parseFile Chars.hmac
stageSome pbkdf2 : List Item := parseFile Chars.pbkdf2
stageSome salsa20 : List Item := parseFile Chars.salsa20
stageSome scrypt : List Item := parseFile Chars.scrypt
stageSome pkcs7 : List Item := parseFile Chars.pkcs7
stageSome aes : List Item := parseFile Chars.aes
stageSome aes_cbc : List Item := parseFile Chars.aes_cbc

/-- The modules, in the order of `src/lib.rs`. -/
def files : List File :=
  [(c!"common", common), (c!"pkcs7", pkcs7), (c!"aes", aes), (c!"aes_cbc", aes_cbc), (c!"hmac", hmac), (c!"pbkdf2", pbkdf2),
    (c!"salsa20", salsa20), (c!"scrypt", scrypt), (c!"sha256", sha256)]

stage env : Env := envOf files
stage defs : List MacroDef := macros files

end Verif.Text.Items
