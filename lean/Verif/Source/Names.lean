-- Generated by tools/rust2lean.py from /repo/src. Do not edit.

/-! The names that occur in the crate. -/

namespace Verif.Source

/-- Local variables, parameters and fields. -/
inductive Id where
  | _i
  | _j
  | a
  | acc
  | aes
  | b
  | b0
  | b1
  | b2
  | b3
  | b_elem
  | b_salt
  | block
  | block_size
  | blocks
  | bs_head
  | bs_tail
  | buf
  | buffer
  | «by»
  | c
  | cell
  | chunk
  | ciphertext
  | cleartext
  | col
  | column
  | ctr
  | d
  | data
  | e
  | elem
  | «end»
  | err
  | f
  | «from»
  | g
  | h
  | has_overflow
  | head
  | hmac
  | i
  | i0
  | i1
  | i2
  | i3
  | inner
  | input
  | is_same
  | iv
  | iv_elem
  | j
  | k
  | key
  | keys
  | l
  | last
  | len
  | len_off
  | length
  | n
  | new_iv
  | nk
  | nr
  | off
  | out
  | outer
  | output
  | p
  | pad
  | pad_off
  | padded_result
  | passphrase
  | password
  | power
  | r
  | raw_b
  | res
  | result
  | round
  | round_count
  | round_key
  | round_keys
  | rounds
  | s
  | s0
  | s1
  | s2
  | s3
  | salt
  | self
  | start
  | state
  | storage
  | sub_chunk
  | t
  | t1
  | t2
  | tail
  | tail_len
  | tail_pos
  | temp
  | tmp
  | to
  | u
  | unpad
  | v
  | v_block
  | value
  | w
  | x
  | x_block
  | x_elem
  | y
  | y_elem
  | z
  | z_elem
deriving DecidableEq, Repr

/-- Structures. -/
inductive Struct where
  | SHA256
  | HMac
  | Scrypt
  | Pad
  | Unpad
  | AESEncrypt
  | AESDecrypt
  | AES
  | Cipher
  | Decipher
deriving DecidableEq, Repr

/-- Variants of enumerations. -/
inductive Ctor where
  | Some
  | None
  | Ok
  | Err
  | ScryptError_RIsTooSmall
  | ScryptError_NIsTooSmall
  | ScryptError_NIsNotAPowerOfTwo
  | ScryptError_PIsTooSmall
  | UnpadError_UnfinishedBlock
  | UnpadError_InvalidPadding
  | AESError_InvalidKeySize
  | AESError_NotInitialized
  | DecipherError_AES
  | DecipherError_PKCS7
deriving DecidableEq, Repr

/-- `const` items. -/
inductive Const where
  | sha256_DIGEST_SIZE
  | sha256_BLOCK_SIZE
  | sha256_K
  | sha256_H
  | salsa20_BLOCK_SIZE
  | scrypt_SALSA_ROUNDS
  | scrypt_PBKDF2_ROUNDS
  | scrypt_BLOCK_SIZE
  | aes_BLOCK_SIZE
  | aes_NB
  | aes_SBOX
  | aes_INV_SBOX
  | aes_RCON
deriving DecidableEq, Repr

/-- Functions and methods. -/
inductive Fn where
  | sha256_ch
  | sha256_maj
  | sha256_rotr
  | sha256_bsig0
  | sha256_bsig1
  | sha256_ssig0
  | sha256_ssig1
  | sha256_fill_block
  | sha256_write_u64_be
  | sha256_SHA256_new
  | sha256_SHA256_process_block
  | sha256_SHA256_update
  | sha256_SHA256_digest
  | sha256_SHA256_default
  | hmac_HMac_new
  | hmac_HMac_update
  | hmac_HMac_digest
  | pbkdf2_pbkdf2_sha256
  | salsa20_rotl
  | salsa20_quarterround
  | salsa20_rowround
  | salsa20_columnround
  | salsa20_doubleround
  | salsa20_littleendian
  | salsa20_littleendian_inv
  | salsa20_salsa20
  | scrypt_ScryptError_fmt
  | scrypt_ScryptError_description
  | scrypt_block_xor
  | scrypt_integerify
  | scrypt_Scrypt_new
  | scrypt_Scrypt_block_mix
  | scrypt_Scrypt_ro_mix
  | scrypt_Scrypt_derive
  | pkcs7_Pad_new
  | pkcs7_Pad_write
  | pkcs7_Pad_flush
  | pkcs7_UnpadError_fmt
  | pkcs7_UnpadError_description
  | pkcs7_Unpad_new
  | pkcs7_Unpad_write
  | pkcs7_Unpad_flush
  | aes_double
  | aes_mul
  | aes_sub_word
  | aes_rot_word
  | aes_expand_key
  | aes_AESEncrypt_lookup_sbox
  | aes_AESEncrypt_mix_column
  | aes_AESEncrypt_shift_rows
  | aes_AESEncrypt_add_round_key
  | aes_AESEncrypt_sub_bytes
  | aes_AESEncrypt_mix_columns
  | aes_AESDecrypt_lookup_sbox
  | aes_AESDecrypt_mix_column
  | aes_AESDecrypt_shift_rows
  | aes_AESDecrypt_add_round_key
  | aes_AESDecrypt_sub_bytes
  | aes_AESDecrypt_mix_columns
  | aes_to_block
  | aes_from_block
  | aes_AESError_fmt
  | aes_AESError_description
  | aes_AES_new
  | aes_AES_init
  | aes_AES_encrypt
  | aes_AES_decrypt
  | aes_AES_default
  | aes_cbc_Cipher_new
  | aes_cbc_Cipher_init
  | aes_cbc_Cipher_write
  | aes_cbc_Cipher_flush
  | aes_cbc_Cipher_encrypt_block
  | aes_cbc_DecipherError_fmt
  | aes_cbc_DecipherError_description
  | aes_cbc_Decipher_new
  | aes_cbc_Decipher_init
  | aes_cbc_Decipher_write
  | aes_cbc_Decipher_flush
deriving DecidableEq, Repr

end Verif.Source
