-- Generated by tools/rust2lean.py from /repo/src. Do not edit.
import Verif.Source.Gen.Sha256
import Verif.Source.Gen.Hmac
import Verif.Source.Gen.Pbkdf2
import Verif.Source.Gen.Salsa20
import Verif.Source.Gen.Scrypt
import Verif.Source.Gen.Pkcs7
import Verif.Source.Gen.Aes
import Verif.Source.Gen.AesCbc

/-! The crate as a program. -/

namespace Verif.Source
open Gen

/-- The functions of the crate. -/
def crateFn : Fn → FnDef
  | .sha256_ch => fn_sha256_ch
  | .sha256_maj => fn_sha256_maj
  | .sha256_rotr => fn_sha256_rotr
  | .sha256_bsig0 => fn_sha256_bsig0
  | .sha256_bsig1 => fn_sha256_bsig1
  | .sha256_ssig0 => fn_sha256_ssig0
  | .sha256_ssig1 => fn_sha256_ssig1
  | .sha256_fill_block => fn_sha256_fill_block
  | .sha256_write_u64_be => fn_sha256_write_u64_be
  | .sha256_SHA256_new => fn_sha256_SHA256_new
  | .sha256_SHA256_process_block => fn_sha256_SHA256_process_block
  | .sha256_SHA256_update => fn_sha256_SHA256_update
  | .sha256_SHA256_digest => fn_sha256_SHA256_digest
  | .sha256_SHA256_default => fn_sha256_SHA256_default
  | .hmac_HMac_new => fn_hmac_HMac_new
  | .hmac_HMac_update => fn_hmac_HMac_update
  | .hmac_HMac_digest => fn_hmac_HMac_digest
  | .pbkdf2_pbkdf2_sha256 => fn_pbkdf2_pbkdf2_sha256
  | .salsa20_rotl => fn_salsa20_rotl
  | .salsa20_quarterround => fn_salsa20_quarterround
  | .salsa20_rowround => fn_salsa20_rowround
  | .salsa20_columnround => fn_salsa20_columnround
  | .salsa20_doubleround => fn_salsa20_doubleround
  | .salsa20_littleendian => fn_salsa20_littleendian
  | .salsa20_littleendian_inv => fn_salsa20_littleendian_inv
  | .salsa20_salsa20 => fn_salsa20_salsa20
  | .scrypt_ScryptError_fmt => fn_scrypt_ScryptError_fmt
  | .scrypt_ScryptError_description => fn_scrypt_ScryptError_description
  | .scrypt_block_xor => fn_scrypt_block_xor
  | .scrypt_integerify => fn_scrypt_integerify
  | .scrypt_Scrypt_new => fn_scrypt_Scrypt_new
  | .scrypt_Scrypt_block_mix => fn_scrypt_Scrypt_block_mix
  | .scrypt_Scrypt_ro_mix => fn_scrypt_Scrypt_ro_mix
  | .scrypt_Scrypt_derive => fn_scrypt_Scrypt_derive
  | .pkcs7_Pad_new => fn_pkcs7_Pad_new
  | .pkcs7_Pad_write => fn_pkcs7_Pad_write
  | .pkcs7_Pad_flush => fn_pkcs7_Pad_flush
  | .pkcs7_UnpadError_fmt => fn_pkcs7_UnpadError_fmt
  | .pkcs7_UnpadError_description => fn_pkcs7_UnpadError_description
  | .pkcs7_Unpad_new => fn_pkcs7_Unpad_new
  | .pkcs7_Unpad_write => fn_pkcs7_Unpad_write
  | .pkcs7_Unpad_flush => fn_pkcs7_Unpad_flush
  | .aes_double => fn_aes_double
  | .aes_mul => fn_aes_mul
  | .aes_sub_word => fn_aes_sub_word
  | .aes_rot_word => fn_aes_rot_word
  | .aes_expand_key => fn_aes_expand_key
  | .aes_AESEncrypt_lookup_sbox => fn_aes_AESEncrypt_lookup_sbox
  | .aes_AESEncrypt_mix_column => fn_aes_AESEncrypt_mix_column
  | .aes_AESEncrypt_shift_rows => fn_aes_AESEncrypt_shift_rows
  | .aes_AESEncrypt_add_round_key => fn_aes_AESEncrypt_add_round_key
  | .aes_AESEncrypt_sub_bytes => fn_aes_AESEncrypt_sub_bytes
  | .aes_AESEncrypt_mix_columns => fn_aes_AESEncrypt_mix_columns
  | .aes_AESDecrypt_lookup_sbox => fn_aes_AESDecrypt_lookup_sbox
  | .aes_AESDecrypt_mix_column => fn_aes_AESDecrypt_mix_column
  | .aes_AESDecrypt_shift_rows => fn_aes_AESDecrypt_shift_rows
  | .aes_AESDecrypt_add_round_key => fn_aes_AESDecrypt_add_round_key
  | .aes_AESDecrypt_sub_bytes => fn_aes_AESDecrypt_sub_bytes
  | .aes_AESDecrypt_mix_columns => fn_aes_AESDecrypt_mix_columns
  | .aes_to_block => fn_aes_to_block
  | .aes_from_block => fn_aes_from_block
  | .aes_AESError_fmt => fn_aes_AESError_fmt
  | .aes_AESError_description => fn_aes_AESError_description
  | .aes_AES_new => fn_aes_AES_new
  | .aes_AES_init => fn_aes_AES_init
  | .aes_AES_encrypt => fn_aes_AES_encrypt
  | .aes_AES_decrypt => fn_aes_AES_decrypt
  | .aes_AES_default => fn_aes_AES_default
  | .aes_cbc_Cipher_new => fn_aes_cbc_Cipher_new
  | .aes_cbc_Cipher_init => fn_aes_cbc_Cipher_init
  | .aes_cbc_Cipher_write => fn_aes_cbc_Cipher_write
  | .aes_cbc_Cipher_flush => fn_aes_cbc_Cipher_flush
  | .aes_cbc_Cipher_encrypt_block => fn_aes_cbc_Cipher_encrypt_block
  | .aes_cbc_DecipherError_fmt => fn_aes_cbc_DecipherError_fmt
  | .aes_cbc_DecipherError_description => fn_aes_cbc_DecipherError_description
  | .aes_cbc_Decipher_new => fn_aes_cbc_Decipher_new
  | .aes_cbc_Decipher_init => fn_aes_cbc_Decipher_init
  | .aes_cbc_Decipher_write => fn_aes_cbc_Decipher_write
  | .aes_cbc_Decipher_flush => fn_aes_cbc_Decipher_flush

/-- The constants of the crate. -/
def crateConst : Const → Expr
  | .sha256_DIGEST_SIZE => const_sha256_DIGEST_SIZE
  | .sha256_BLOCK_SIZE => const_sha256_BLOCK_SIZE
  | .sha256_K => const_sha256_K
  | .sha256_H => const_sha256_H
  | .salsa20_BLOCK_SIZE => const_salsa20_BLOCK_SIZE
  | .scrypt_SALSA_ROUNDS => const_scrypt_SALSA_ROUNDS
  | .scrypt_PBKDF2_ROUNDS => const_scrypt_PBKDF2_ROUNDS
  | .scrypt_BLOCK_SIZE => const_scrypt_BLOCK_SIZE
  | .aes_BLOCK_SIZE => const_aes_BLOCK_SIZE
  | .aes_NB => const_aes_NB
  | .aes_SBOX => const_aes_SBOX
  | .aes_INV_SBOX => const_aes_INV_SBOX
  | .aes_RCON => const_aes_RCON

/-- The crate. -/
def crate : Program := { fn := crateFn, const := crateConst }

end Verif.Source
