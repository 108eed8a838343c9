-- Generated by tools/rust2lean.py from /repo/src. Do not edit.
import Verif.Source.Lemmas

/-! What a call of each function evaluates. -/

set_option linter.constructorNameAsVariable false

namespace Verif.Source
open Verif

variable (T : Target) (F d : Nat)

@[src] theorem sig_sha256_ch : (ctx T F d).sig .sha256_ch = [.val, .val, .val] := (rfl)
theorem call_sha256_ch (args : List Val) :
    call T crate F (d + 1) .sha256_ch args =
      finish [(.x, .val), (.y, .val), (.z, .val)] (eval (ctx T F d) Gen.fn_sha256_ch.body ([.x, .y, .z].zip args)) := (rfl)

@[src] theorem sig_sha256_maj : (ctx T F d).sig .sha256_maj = [.val, .val, .val] := (rfl)
theorem call_sha256_maj (args : List Val) :
    call T crate F (d + 1) .sha256_maj args =
      finish [(.x, .val), (.y, .val), (.z, .val)] (eval (ctx T F d) Gen.fn_sha256_maj.body ([.x, .y, .z].zip args)) := (rfl)

@[src] theorem sig_sha256_rotr : (ctx T F d).sig .sha256_rotr = [.val, .val] := (rfl)
theorem call_sha256_rotr (args : List Val) :
    call T crate F (d + 1) .sha256_rotr args =
      finish [(.n, .val), (.s, .val)] (eval (ctx T F d) Gen.fn_sha256_rotr.body ([.n, .s].zip args)) := (rfl)

@[src] theorem sig_sha256_bsig0 : (ctx T F d).sig .sha256_bsig0 = [.val] := (rfl)
theorem call_sha256_bsig0 (args : List Val) :
    call T crate F (d + 1) .sha256_bsig0 args =
      finish [(.x, .val)] (eval (ctx T F d) Gen.fn_sha256_bsig0.body ([.x].zip args)) := (rfl)

@[src] theorem sig_sha256_bsig1 : (ctx T F d).sig .sha256_bsig1 = [.val] := (rfl)
theorem call_sha256_bsig1 (args : List Val) :
    call T crate F (d + 1) .sha256_bsig1 args =
      finish [(.x, .val)] (eval (ctx T F d) Gen.fn_sha256_bsig1.body ([.x].zip args)) := (rfl)

@[src] theorem sig_sha256_ssig0 : (ctx T F d).sig .sha256_ssig0 = [.val] := (rfl)
theorem call_sha256_ssig0 (args : List Val) :
    call T crate F (d + 1) .sha256_ssig0 args =
      finish [(.x, .val)] (eval (ctx T F d) Gen.fn_sha256_ssig0.body ([.x].zip args)) := (rfl)

@[src] theorem sig_sha256_ssig1 : (ctx T F d).sig .sha256_ssig1 = [.val] := (rfl)
theorem call_sha256_ssig1 (args : List Val) :
    call T crate F (d + 1) .sha256_ssig1 args =
      finish [(.x, .val)] (eval (ctx T F d) Gen.fn_sha256_ssig1.body ([.x].zip args)) := (rfl)

@[src] theorem sig_sha256_fill_block : (ctx T F d).sig .sha256_fill_block = [.val, .mutRef] := (rfl)
theorem call_sha256_fill_block (args : List Val) :
    call T crate F (d + 1) .sha256_fill_block args =
      finish [(.input, .val), (.output, .mutRef)] (eval (ctx T F d) Gen.fn_sha256_fill_block.body ([.input, .output].zip args)) := (rfl)

@[src] theorem sig_sha256_write_u64_be : (ctx T F d).sig .sha256_write_u64_be = [.mutRef, .val] := (rfl)
theorem call_sha256_write_u64_be (args : List Val) :
    call T crate F (d + 1) .sha256_write_u64_be args =
      finish [(.data, .mutRef), (.value, .val)] (eval (ctx T F d) Gen.fn_sha256_write_u64_be.body ([.data, .value].zip args)) := (rfl)

@[src] theorem sig_sha256_SHA256_new : (ctx T F d).sig .sha256_SHA256_new = [] := (rfl)
theorem call_sha256_SHA256_new (args : List Val) :
    call T crate F (d + 1) .sha256_SHA256_new args =
      finish [] (eval (ctx T F d) Gen.fn_sha256_SHA256_new.body ([].zip args)) := (rfl)

@[src] theorem sig_sha256_SHA256_process_block : (ctx T F d).sig .sha256_SHA256_process_block = [.mutRef, .val] := (rfl)
theorem call_sha256_SHA256_process_block (args : List Val) :
    call T crate F (d + 1) .sha256_SHA256_process_block args =
      finish [(.self, .mutRef), (.block, .val)] (eval (ctx T F d) Gen.fn_sha256_SHA256_process_block.body ([.self, .block].zip args)) := (rfl)

@[src] theorem sig_sha256_SHA256_update : (ctx T F d).sig .sha256_SHA256_update = [.mutRef, .val] := (rfl)
theorem call_sha256_SHA256_update (args : List Val) :
    call T crate F (d + 1) .sha256_SHA256_update args =
      finish [(.self, .mutRef), (.data, .val)] (eval (ctx T F d) Gen.fn_sha256_SHA256_update.body ([.self, .data].zip args)) := (rfl)

@[src] theorem sig_sha256_SHA256_digest : (ctx T F d).sig .sha256_SHA256_digest = [.mutRef] := (rfl)
theorem call_sha256_SHA256_digest (args : List Val) :
    call T crate F (d + 1) .sha256_SHA256_digest args =
      finish [(.self, .mutRef)] (eval (ctx T F d) Gen.fn_sha256_SHA256_digest.body ([.self].zip args)) := (rfl)

@[src] theorem sig_sha256_SHA256_default : (ctx T F d).sig .sha256_SHA256_default = [] := (rfl)
theorem call_sha256_SHA256_default (args : List Val) :
    call T crate F (d + 1) .sha256_SHA256_default args =
      finish [] (eval (ctx T F d) Gen.fn_sha256_SHA256_default.body ([].zip args)) := (rfl)

@[src] theorem sig_hmac_HMac_new : (ctx T F d).sig .hmac_HMac_new = [.val] := (rfl)
theorem call_hmac_HMac_new (args : List Val) :
    call T crate F (d + 1) .hmac_HMac_new args =
      finish [(.key, .val)] (eval (ctx T F d) Gen.fn_hmac_HMac_new.body ([.key].zip args)) := (rfl)

@[src] theorem sig_hmac_HMac_update : (ctx T F d).sig .hmac_HMac_update = [.mutRef, .val] := (rfl)
theorem call_hmac_HMac_update (args : List Val) :
    call T crate F (d + 1) .hmac_HMac_update args =
      finish [(.self, .mutRef), (.data, .val)] (eval (ctx T F d) Gen.fn_hmac_HMac_update.body ([.self, .data].zip args)) := (rfl)

@[src] theorem sig_hmac_HMac_digest : (ctx T F d).sig .hmac_HMac_digest = [.mutRef] := (rfl)
theorem call_hmac_HMac_digest (args : List Val) :
    call T crate F (d + 1) .hmac_HMac_digest args =
      finish [(.self, .mutRef)] (eval (ctx T F d) Gen.fn_hmac_HMac_digest.body ([.self].zip args)) := (rfl)

@[src] theorem sig_pbkdf2_pbkdf2_sha256 : (ctx T F d).sig .pbkdf2_pbkdf2_sha256 = [.val, .val, .val, .mutRef] := (rfl)
theorem call_pbkdf2_pbkdf2_sha256 (args : List Val) :
    call T crate F (d + 1) .pbkdf2_pbkdf2_sha256 args =
      finish [(.password, .val), (.salt, .val), (.c, .val), (.out, .mutRef)] (eval (ctx T F d) Gen.fn_pbkdf2_pbkdf2_sha256.body ([.password, .salt, .c, .out].zip args)) := (rfl)

@[src] theorem sig_salsa20_rotl : (ctx T F d).sig .salsa20_rotl = [.val, .val] := (rfl)
theorem call_salsa20_rotl (args : List Val) :
    call T crate F (d + 1) .salsa20_rotl args =
      finish [(.n, .val), (.s, .val)] (eval (ctx T F d) Gen.fn_salsa20_rotl.body ([.n, .s].zip args)) := (rfl)

@[src] theorem sig_salsa20_quarterround : (ctx T F d).sig .salsa20_quarterround = [.val, .mutRef] := (rfl)
theorem call_salsa20_quarterround (args : List Val) :
    call T crate F (d + 1) .salsa20_quarterround args =
      finish [(.y, .val), (.z, .mutRef)] (eval (ctx T F d) Gen.fn_salsa20_quarterround.body ([.y, .z].zip args)) := (rfl)

@[src] theorem sig_salsa20_rowround : (ctx T F d).sig .salsa20_rowround = [.val, .mutRef] := (rfl)
theorem call_salsa20_rowround (args : List Val) :
    call T crate F (d + 1) .salsa20_rowround args =
      finish [(.y, .val), (.z, .mutRef)] (eval (ctx T F d) Gen.fn_salsa20_rowround.body ([.y, .z].zip args)) := (rfl)

@[src] theorem sig_salsa20_columnround : (ctx T F d).sig .salsa20_columnround = [.val, .mutRef] := (rfl)
theorem call_salsa20_columnround (args : List Val) :
    call T crate F (d + 1) .salsa20_columnround args =
      finish [(.x, .val), (.y, .mutRef)] (eval (ctx T F d) Gen.fn_salsa20_columnround.body ([.x, .y].zip args)) := (rfl)

@[src] theorem sig_salsa20_doubleround : (ctx T F d).sig .salsa20_doubleround = [.val, .mutRef] := (rfl)
theorem call_salsa20_doubleround (args : List Val) :
    call T crate F (d + 1) .salsa20_doubleround args =
      finish [(.x, .val), (.y, .mutRef)] (eval (ctx T F d) Gen.fn_salsa20_doubleround.body ([.x, .y].zip args)) := (rfl)

@[src] theorem sig_salsa20_littleendian : (ctx T F d).sig .salsa20_littleendian = [.val] := (rfl)
theorem call_salsa20_littleendian (args : List Val) :
    call T crate F (d + 1) .salsa20_littleendian args =
      finish [(.b, .val)] (eval (ctx T F d) Gen.fn_salsa20_littleendian.body ([.b].zip args)) := (rfl)

@[src] theorem sig_salsa20_littleendian_inv : (ctx T F d).sig .salsa20_littleendian_inv = [.val, .mutRef] := (rfl)
theorem call_salsa20_littleendian_inv (args : List Val) :
    call T crate F (d + 1) .salsa20_littleendian_inv args =
      finish [(.x, .val), (.y, .mutRef)] (eval (ctx T F d) Gen.fn_salsa20_littleendian_inv.body ([.x, .y].zip args)) := (rfl)

@[src] theorem sig_salsa20_salsa20 : (ctx T F d).sig .salsa20_salsa20 = [.val, .val, .mutRef] := (rfl)
theorem call_salsa20_salsa20 (args : List Val) :
    call T crate F (d + 1) .salsa20_salsa20 args =
      finish [(.input, .val), (.rounds, .val), (.output, .mutRef)] (eval (ctx T F d) Gen.fn_salsa20_salsa20.body ([.input, .rounds, .output].zip args)) := (rfl)

@[src] theorem sig_scrypt_ScryptError_fmt : (ctx T F d).sig .scrypt_ScryptError_fmt = [.val, .mutRef] := (rfl)
theorem call_scrypt_ScryptError_fmt (args : List Val) :
    call T crate F (d + 1) .scrypt_ScryptError_fmt args =
      finish [(.self, .val), (.f, .mutRef)] (eval (ctx T F d) Gen.fn_scrypt_ScryptError_fmt.body ([.self, .f].zip args)) := (rfl)

@[src] theorem sig_scrypt_ScryptError_description : (ctx T F d).sig .scrypt_ScryptError_description = [.val] := (rfl)
theorem call_scrypt_ScryptError_description (args : List Val) :
    call T crate F (d + 1) .scrypt_ScryptError_description args =
      finish [(.self, .val)] (eval (ctx T F d) Gen.fn_scrypt_ScryptError_description.body ([.self].zip args)) := (rfl)

@[src] theorem sig_scrypt_block_xor : (ctx T F d).sig .scrypt_block_xor = [.val, .val] := (rfl)
theorem call_scrypt_block_xor (args : List Val) :
    call T crate F (d + 1) .scrypt_block_xor args =
      finish [(.a, .val), (.b, .val)] (eval (ctx T F d) Gen.fn_scrypt_block_xor.body ([.a, .b].zip args)) := (rfl)

@[src] theorem sig_scrypt_integerify : (ctx T F d).sig .scrypt_integerify = [.val] := (rfl)
theorem call_scrypt_integerify (args : List Val) :
    call T crate F (d + 1) .scrypt_integerify args =
      finish [(.x, .val)] (eval (ctx T F d) Gen.fn_scrypt_integerify.body ([.x].zip args)) := (rfl)

@[src] theorem sig_scrypt_Scrypt_new : (ctx T F d).sig .scrypt_Scrypt_new = [.val, .val, .val] := (rfl)
theorem call_scrypt_Scrypt_new (args : List Val) :
    call T crate F (d + 1) .scrypt_Scrypt_new args =
      finish [(.r, .val), (.n, .val), (.p, .val)] (eval (ctx T F d) Gen.fn_scrypt_Scrypt_new.body ([.r, .n, .p].zip args)) := (rfl)

@[src] theorem sig_scrypt_Scrypt_block_mix : (ctx T F d).sig .scrypt_Scrypt_block_mix = [.val, .val] := (rfl)
theorem call_scrypt_Scrypt_block_mix (args : List Val) :
    call T crate F (d + 1) .scrypt_Scrypt_block_mix args =
      finish [(.self, .val), (.b, .val)] (eval (ctx T F d) Gen.fn_scrypt_Scrypt_block_mix.body ([.self, .b].zip args)) := (rfl)

@[src] theorem sig_scrypt_Scrypt_ro_mix : (ctx T F d).sig .scrypt_Scrypt_ro_mix = [.val, .val] := (rfl)
theorem call_scrypt_Scrypt_ro_mix (args : List Val) :
    call T crate F (d + 1) .scrypt_Scrypt_ro_mix args =
      finish [(.self, .val), (.b, .val)] (eval (ctx T F d) Gen.fn_scrypt_Scrypt_ro_mix.body ([.self, .b].zip args)) := (rfl)

@[src] theorem sig_scrypt_Scrypt_derive : (ctx T F d).sig .scrypt_Scrypt_derive = [.val, .val, .val, .mutRef] := (rfl)
theorem call_scrypt_Scrypt_derive (args : List Val) :
    call T crate F (d + 1) .scrypt_Scrypt_derive args =
      finish [(.self, .val), (.passphrase, .val), (.salt, .val), (.out, .mutRef)] (eval (ctx T F d) Gen.fn_scrypt_Scrypt_derive.body ([.self, .passphrase, .salt, .out].zip args)) := (rfl)

@[src] theorem sig_pkcs7_Pad_new : (ctx T F d).sig .pkcs7_Pad_new = [.val] := (rfl)
theorem call_pkcs7_Pad_new (args : List Val) :
    call T crate F (d + 1) .pkcs7_Pad_new args =
      finish [(.block_size, .val)] (eval (ctx T F d) Gen.fn_pkcs7_Pad_new.body ([.block_size].zip args)) := (rfl)

@[src] theorem sig_pkcs7_Pad_write : (ctx T F d).sig .pkcs7_Pad_write = [.mutRef, .val] := (rfl)
theorem call_pkcs7_Pad_write (args : List Val) :
    call T crate F (d + 1) .pkcs7_Pad_write args =
      finish [(.self, .mutRef), (.buf, .val)] (eval (ctx T F d) Gen.fn_pkcs7_Pad_write.body ([.self, .buf].zip args)) := (rfl)

@[src] theorem sig_pkcs7_Pad_flush : (ctx T F d).sig .pkcs7_Pad_flush = [.mutRef] := (rfl)
theorem call_pkcs7_Pad_flush (args : List Val) :
    call T crate F (d + 1) .pkcs7_Pad_flush args =
      finish [(.self, .mutRef)] (eval (ctx T F d) Gen.fn_pkcs7_Pad_flush.body ([.self].zip args)) := (rfl)

@[src] theorem sig_pkcs7_UnpadError_fmt : (ctx T F d).sig .pkcs7_UnpadError_fmt = [.val, .mutRef] := (rfl)
theorem call_pkcs7_UnpadError_fmt (args : List Val) :
    call T crate F (d + 1) .pkcs7_UnpadError_fmt args =
      finish [(.self, .val), (.f, .mutRef)] (eval (ctx T F d) Gen.fn_pkcs7_UnpadError_fmt.body ([.self, .f].zip args)) := (rfl)

@[src] theorem sig_pkcs7_UnpadError_description : (ctx T F d).sig .pkcs7_UnpadError_description = [.val] := (rfl)
theorem call_pkcs7_UnpadError_description (args : List Val) :
    call T crate F (d + 1) .pkcs7_UnpadError_description args =
      finish [(.self, .val)] (eval (ctx T F d) Gen.fn_pkcs7_UnpadError_description.body ([.self].zip args)) := (rfl)

@[src] theorem sig_pkcs7_Unpad_new : (ctx T F d).sig .pkcs7_Unpad_new = [.val] := (rfl)
theorem call_pkcs7_Unpad_new (args : List Val) :
    call T crate F (d + 1) .pkcs7_Unpad_new args =
      finish [(.block_size, .val)] (eval (ctx T F d) Gen.fn_pkcs7_Unpad_new.body ([.block_size].zip args)) := (rfl)

@[src] theorem sig_pkcs7_Unpad_write : (ctx T F d).sig .pkcs7_Unpad_write = [.mutRef, .val] := (rfl)
theorem call_pkcs7_Unpad_write (args : List Val) :
    call T crate F (d + 1) .pkcs7_Unpad_write args =
      finish [(.self, .mutRef), (.buf, .val)] (eval (ctx T F d) Gen.fn_pkcs7_Unpad_write.body ([.self, .buf].zip args)) := (rfl)

@[src] theorem sig_pkcs7_Unpad_flush : (ctx T F d).sig .pkcs7_Unpad_flush = [.mutRef] := (rfl)
theorem call_pkcs7_Unpad_flush (args : List Val) :
    call T crate F (d + 1) .pkcs7_Unpad_flush args =
      finish [(.self, .mutRef)] (eval (ctx T F d) Gen.fn_pkcs7_Unpad_flush.body ([.self].zip args)) := (rfl)

@[src] theorem sig_aes_double : (ctx T F d).sig .aes_double = [.val] := (rfl)
theorem call_aes_double (args : List Val) :
    call T crate F (d + 1) .aes_double args =
      finish [(.b, .val)] (eval (ctx T F d) Gen.fn_aes_double.body ([.b].zip args)) := (rfl)

@[src] theorem sig_aes_mul : (ctx T F d).sig .aes_mul = [.val, .val] := (rfl)
theorem call_aes_mul (args : List Val) :
    call T crate F (d + 1) .aes_mul args =
      finish [(.b, .val), (.«by», .val)] (eval (ctx T F d) Gen.fn_aes_mul.body ([.b, .«by»].zip args)) := (rfl)

@[src] theorem sig_aes_sub_word : (ctx T F d).sig .aes_sub_word = [.val] := (rfl)
theorem call_aes_sub_word (args : List Val) :
    call T crate F (d + 1) .aes_sub_word args =
      finish [(.b, .val)] (eval (ctx T F d) Gen.fn_aes_sub_word.body ([.b].zip args)) := (rfl)

@[src] theorem sig_aes_rot_word : (ctx T F d).sig .aes_rot_word = [.val] := (rfl)
theorem call_aes_rot_word (args : List Val) :
    call T crate F (d + 1) .aes_rot_word args =
      finish [(.b, .val)] (eval (ctx T F d) Gen.fn_aes_rot_word.body ([.b].zip args)) := (rfl)

@[src] theorem sig_aes_expand_key : (ctx T F d).sig .aes_expand_key = [.val, .val] := (rfl)
theorem call_aes_expand_key (args : List Val) :
    call T crate F (d + 1) .aes_expand_key args =
      finish [(.key, .val), (.round_count, .val)] (eval (ctx T F d) Gen.fn_aes_expand_key.body ([.key, .round_count].zip args)) := (rfl)

@[src] theorem sig_aes_AESEncrypt_lookup_sbox : (ctx T F d).sig .aes_AESEncrypt_lookup_sbox = [.val] := (rfl)
theorem call_aes_AESEncrypt_lookup_sbox (args : List Val) :
    call T crate F (d + 1) .aes_AESEncrypt_lookup_sbox args =
      finish [(.b, .val)] (eval (ctx T F d) Gen.fn_aes_AESEncrypt_lookup_sbox.body ([.b].zip args)) := (rfl)

@[src] theorem sig_aes_AESEncrypt_mix_column : (ctx T F d).sig .aes_AESEncrypt_mix_column = [.val] := (rfl)
theorem call_aes_AESEncrypt_mix_column (args : List Val) :
    call T crate F (d + 1) .aes_AESEncrypt_mix_column args =
      finish [(.col, .val)] (eval (ctx T F d) Gen.fn_aes_AESEncrypt_mix_column.body ([.col].zip args)) := (rfl)

@[src] theorem sig_aes_AESEncrypt_shift_rows : (ctx T F d).sig .aes_AESEncrypt_shift_rows = [.val] := (rfl)
theorem call_aes_AESEncrypt_shift_rows (args : List Val) :
    call T crate F (d + 1) .aes_AESEncrypt_shift_rows args =
      finish [(.s, .val)] (eval (ctx T F d) Gen.fn_aes_AESEncrypt_shift_rows.body ([.s].zip args)) := (rfl)

@[src] theorem sig_aes_AESEncrypt_add_round_key : (ctx T F d).sig .aes_AESEncrypt_add_round_key = [.mutRef, .val] := (rfl)
theorem call_aes_AESEncrypt_add_round_key (args : List Val) :
    call T crate F (d + 1) .aes_AESEncrypt_add_round_key args =
      finish [(.s, .mutRef), (.round_key, .val)] (eval (ctx T F d) Gen.fn_aes_AESEncrypt_add_round_key.body ([.s, .round_key].zip args)) := (rfl)

@[src] theorem sig_aes_AESEncrypt_sub_bytes : (ctx T F d).sig .aes_AESEncrypt_sub_bytes = [.mutRef] := (rfl)
theorem call_aes_AESEncrypt_sub_bytes (args : List Val) :
    call T crate F (d + 1) .aes_AESEncrypt_sub_bytes args =
      finish [(.s, .mutRef)] (eval (ctx T F d) Gen.fn_aes_AESEncrypt_sub_bytes.body ([.s].zip args)) := (rfl)

@[src] theorem sig_aes_AESEncrypt_mix_columns : (ctx T F d).sig .aes_AESEncrypt_mix_columns = [.mutRef] := (rfl)
theorem call_aes_AESEncrypt_mix_columns (args : List Val) :
    call T crate F (d + 1) .aes_AESEncrypt_mix_columns args =
      finish [(.s, .mutRef)] (eval (ctx T F d) Gen.fn_aes_AESEncrypt_mix_columns.body ([.s].zip args)) := (rfl)

@[src] theorem sig_aes_AESDecrypt_lookup_sbox : (ctx T F d).sig .aes_AESDecrypt_lookup_sbox = [.val] := (rfl)
theorem call_aes_AESDecrypt_lookup_sbox (args : List Val) :
    call T crate F (d + 1) .aes_AESDecrypt_lookup_sbox args =
      finish [(.b, .val)] (eval (ctx T F d) Gen.fn_aes_AESDecrypt_lookup_sbox.body ([.b].zip args)) := (rfl)

@[src] theorem sig_aes_AESDecrypt_mix_column : (ctx T F d).sig .aes_AESDecrypt_mix_column = [.val] := (rfl)
theorem call_aes_AESDecrypt_mix_column (args : List Val) :
    call T crate F (d + 1) .aes_AESDecrypt_mix_column args =
      finish [(.col, .val)] (eval (ctx T F d) Gen.fn_aes_AESDecrypt_mix_column.body ([.col].zip args)) := (rfl)

@[src] theorem sig_aes_AESDecrypt_shift_rows : (ctx T F d).sig .aes_AESDecrypt_shift_rows = [.val] := (rfl)
theorem call_aes_AESDecrypt_shift_rows (args : List Val) :
    call T crate F (d + 1) .aes_AESDecrypt_shift_rows args =
      finish [(.s, .val)] (eval (ctx T F d) Gen.fn_aes_AESDecrypt_shift_rows.body ([.s].zip args)) := (rfl)

@[src] theorem sig_aes_AESDecrypt_add_round_key : (ctx T F d).sig .aes_AESDecrypt_add_round_key = [.mutRef, .val] := (rfl)
theorem call_aes_AESDecrypt_add_round_key (args : List Val) :
    call T crate F (d + 1) .aes_AESDecrypt_add_round_key args =
      finish [(.s, .mutRef), (.round_key, .val)] (eval (ctx T F d) Gen.fn_aes_AESDecrypt_add_round_key.body ([.s, .round_key].zip args)) := (rfl)

@[src] theorem sig_aes_AESDecrypt_sub_bytes : (ctx T F d).sig .aes_AESDecrypt_sub_bytes = [.mutRef] := (rfl)
theorem call_aes_AESDecrypt_sub_bytes (args : List Val) :
    call T crate F (d + 1) .aes_AESDecrypt_sub_bytes args =
      finish [(.s, .mutRef)] (eval (ctx T F d) Gen.fn_aes_AESDecrypt_sub_bytes.body ([.s].zip args)) := (rfl)

@[src] theorem sig_aes_AESDecrypt_mix_columns : (ctx T F d).sig .aes_AESDecrypt_mix_columns = [.mutRef] := (rfl)
theorem call_aes_AESDecrypt_mix_columns (args : List Val) :
    call T crate F (d + 1) .aes_AESDecrypt_mix_columns args =
      finish [(.s, .mutRef)] (eval (ctx T F d) Gen.fn_aes_AESDecrypt_mix_columns.body ([.s].zip args)) := (rfl)

@[src] theorem sig_aes_to_block : (ctx T F d).sig .aes_to_block = [.val] := (rfl)
theorem call_aes_to_block (args : List Val) :
    call T crate F (d + 1) .aes_to_block args =
      finish [(.b, .val)] (eval (ctx T F d) Gen.fn_aes_to_block.body ([.b].zip args)) := (rfl)

@[src] theorem sig_aes_from_block : (ctx T F d).sig .aes_from_block = [.val] := (rfl)
theorem call_aes_from_block (args : List Val) :
    call T crate F (d + 1) .aes_from_block args =
      finish [(.s, .val)] (eval (ctx T F d) Gen.fn_aes_from_block.body ([.s].zip args)) := (rfl)

@[src] theorem sig_aes_AESError_fmt : (ctx T F d).sig .aes_AESError_fmt = [.val, .mutRef] := (rfl)
theorem call_aes_AESError_fmt (args : List Val) :
    call T crate F (d + 1) .aes_AESError_fmt args =
      finish [(.self, .val), (.f, .mutRef)] (eval (ctx T F d) Gen.fn_aes_AESError_fmt.body ([.self, .f].zip args)) := (rfl)

@[src] theorem sig_aes_AESError_description : (ctx T F d).sig .aes_AESError_description = [.val] := (rfl)
theorem call_aes_AESError_description (args : List Val) :
    call T crate F (d + 1) .aes_AESError_description args =
      finish [(.self, .val)] (eval (ctx T F d) Gen.fn_aes_AESError_description.body ([.self].zip args)) := (rfl)

@[src] theorem sig_aes_AES_new : (ctx T F d).sig .aes_AES_new = [] := (rfl)
theorem call_aes_AES_new (args : List Val) :
    call T crate F (d + 1) .aes_AES_new args =
      finish [] (eval (ctx T F d) Gen.fn_aes_AES_new.body ([].zip args)) := (rfl)

@[src] theorem sig_aes_AES_init : (ctx T F d).sig .aes_AES_init = [.mutRef, .val] := (rfl)
theorem call_aes_AES_init (args : List Val) :
    call T crate F (d + 1) .aes_AES_init args =
      finish [(.self, .mutRef), (.key, .val)] (eval (ctx T F d) Gen.fn_aes_AES_init.body ([.self, .key].zip args)) := (rfl)

@[src] theorem sig_aes_AES_encrypt : (ctx T F d).sig .aes_AES_encrypt = [.val, .val] := (rfl)
theorem call_aes_AES_encrypt (args : List Val) :
    call T crate F (d + 1) .aes_AES_encrypt args =
      finish [(.self, .val), (.b, .val)] (eval (ctx T F d) Gen.fn_aes_AES_encrypt.body ([.self, .b].zip args)) := (rfl)

@[src] theorem sig_aes_AES_decrypt : (ctx T F d).sig .aes_AES_decrypt = [.val, .val] := (rfl)
theorem call_aes_AES_decrypt (args : List Val) :
    call T crate F (d + 1) .aes_AES_decrypt args =
      finish [(.self, .val), (.b, .val)] (eval (ctx T F d) Gen.fn_aes_AES_decrypt.body ([.self, .b].zip args)) := (rfl)

@[src] theorem sig_aes_AES_default : (ctx T F d).sig .aes_AES_default = [] := (rfl)
theorem call_aes_AES_default (args : List Val) :
    call T crate F (d + 1) .aes_AES_default args =
      finish [] (eval (ctx T F d) Gen.fn_aes_AES_default.body ([].zip args)) := (rfl)

@[src] theorem sig_aes_cbc_Cipher_new : (ctx T F d).sig .aes_cbc_Cipher_new = [.val] := (rfl)
theorem call_aes_cbc_Cipher_new (args : List Val) :
    call T crate F (d + 1) .aes_cbc_Cipher_new args =
      finish [(.iv, .val)] (eval (ctx T F d) Gen.fn_aes_cbc_Cipher_new.body ([.iv].zip args)) := (rfl)

@[src] theorem sig_aes_cbc_Cipher_init : (ctx T F d).sig .aes_cbc_Cipher_init = [.mutRef, .val] := (rfl)
theorem call_aes_cbc_Cipher_init (args : List Val) :
    call T crate F (d + 1) .aes_cbc_Cipher_init args =
      finish [(.self, .mutRef), (.key, .val)] (eval (ctx T F d) Gen.fn_aes_cbc_Cipher_init.body ([.self, .key].zip args)) := (rfl)

@[src] theorem sig_aes_cbc_Cipher_write : (ctx T F d).sig .aes_cbc_Cipher_write = [.mutRef, .val] := (rfl)
theorem call_aes_cbc_Cipher_write (args : List Val) :
    call T crate F (d + 1) .aes_cbc_Cipher_write args =
      finish [(.self, .mutRef), (.b, .val)] (eval (ctx T F d) Gen.fn_aes_cbc_Cipher_write.body ([.self, .b].zip args)) := (rfl)

@[src] theorem sig_aes_cbc_Cipher_flush : (ctx T F d).sig .aes_cbc_Cipher_flush = [.mutRef] := (rfl)
theorem call_aes_cbc_Cipher_flush (args : List Val) :
    call T crate F (d + 1) .aes_cbc_Cipher_flush args =
      finish [(.self, .mutRef)] (eval (ctx T F d) Gen.fn_aes_cbc_Cipher_flush.body ([.self].zip args)) := (rfl)

@[src] theorem sig_aes_cbc_Cipher_encrypt_block : (ctx T F d).sig .aes_cbc_Cipher_encrypt_block = [.mutRef, .val] := (rfl)
theorem call_aes_cbc_Cipher_encrypt_block (args : List Val) :
    call T crate F (d + 1) .aes_cbc_Cipher_encrypt_block args =
      finish [(.self, .mutRef), (.b, .val)] (eval (ctx T F d) Gen.fn_aes_cbc_Cipher_encrypt_block.body ([.self, .b].zip args)) := (rfl)

@[src] theorem sig_aes_cbc_DecipherError_fmt : (ctx T F d).sig .aes_cbc_DecipherError_fmt = [.val, .mutRef] := (rfl)
theorem call_aes_cbc_DecipherError_fmt (args : List Val) :
    call T crate F (d + 1) .aes_cbc_DecipherError_fmt args =
      finish [(.self, .val), (.f, .mutRef)] (eval (ctx T F d) Gen.fn_aes_cbc_DecipherError_fmt.body ([.self, .f].zip args)) := (rfl)

@[src] theorem sig_aes_cbc_DecipherError_description : (ctx T F d).sig .aes_cbc_DecipherError_description = [.val] := (rfl)
theorem call_aes_cbc_DecipherError_description (args : List Val) :
    call T crate F (d + 1) .aes_cbc_DecipherError_description args =
      finish [(.self, .val)] (eval (ctx T F d) Gen.fn_aes_cbc_DecipherError_description.body ([.self].zip args)) := (rfl)

@[src] theorem sig_aes_cbc_Decipher_new : (ctx T F d).sig .aes_cbc_Decipher_new = [.val] := (rfl)
theorem call_aes_cbc_Decipher_new (args : List Val) :
    call T crate F (d + 1) .aes_cbc_Decipher_new args =
      finish [(.iv, .val)] (eval (ctx T F d) Gen.fn_aes_cbc_Decipher_new.body ([.iv].zip args)) := (rfl)

@[src] theorem sig_aes_cbc_Decipher_init : (ctx T F d).sig .aes_cbc_Decipher_init = [.mutRef, .val] := (rfl)
theorem call_aes_cbc_Decipher_init (args : List Val) :
    call T crate F (d + 1) .aes_cbc_Decipher_init args =
      finish [(.self, .mutRef), (.key, .val)] (eval (ctx T F d) Gen.fn_aes_cbc_Decipher_init.body ([.self, .key].zip args)) := (rfl)

@[src] theorem sig_aes_cbc_Decipher_write : (ctx T F d).sig .aes_cbc_Decipher_write = [.mutRef, .val] := (rfl)
theorem call_aes_cbc_Decipher_write (args : List Val) :
    call T crate F (d + 1) .aes_cbc_Decipher_write args =
      finish [(.self, .mutRef), (.b, .val)] (eval (ctx T F d) Gen.fn_aes_cbc_Decipher_write.body ([.self, .b].zip args)) := (rfl)

@[src] theorem sig_aes_cbc_Decipher_flush : (ctx T F d).sig .aes_cbc_Decipher_flush = [.mutRef] := (rfl)
theorem call_aes_cbc_Decipher_flush (args : List Val) :
    call T crate F (d + 1) .aes_cbc_Decipher_flush args =
      finish [(.self, .mutRef)] (eval (ctx T F d) Gen.fn_aes_cbc_Decipher_flush.body ([.self].zip args)) := (rfl)

end Verif.Source
