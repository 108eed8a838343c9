import Verif.Text.Functions

/-!
The program the theorems of `Verif/Props/Source*.lean` speak about is what the front end makes of the text of the files.
-/

namespace Verif.Text
open Verif.Source (Program Fn FnDef Const Expr crate crateFn crateConst)

/-- `p` is the program that is written in the files: `lib` is the text of `src/lib.rs`, and `files` are the texts of the modules. The
functions and constants of the text are those of `p`, under their names, each of them once. -/
def IsProgram (lib : List String) (files : List (Nat × List String)) (p : Program) : Prop :=
  ∃ fns consts, translate lib files = some (fns, consts) ∧
    (∀ f d, (f, d) ∈ fns ↔ d = p.fn f) ∧ (∀ c e, (c, e) ∈ consts ↔ e = p.const c)

/-- The files of the modules of `/repo/src`. -/
def sources : List (Nat × List String) :=
  [(c!"aes", Files.aes), (c!"aes_cbc", Files.aes_cbc), (c!"common", Files.common), (c!"hmac", Files.hmac), (c!"pbkdf2", Files.pbkdf2),
    (c!"pkcs7", Files.pkcs7), (c!"salsa20", Files.salsa20), (c!"scrypt", Files.scrypt), (c!"sha256", Files.sha256)]

/-- Only one program is written in given files. -/
theorem IsProgram.unique {lib : List String} {files : List (Nat × List String)} {p q : Program} (hp : IsProgram lib files p)
    (hq : IsProgram lib files q) : p = q := by
  obtain ⟨fns, consts, h, hf, hc⟩ := hp
  obtain ⟨fns', consts', h', hf', hc'⟩ := hq
  rw [h] at h'
  cases h'
  obtain ⟨pf, pc⟩ := p
  obtain ⟨qf, qc⟩ := q
  have e1 : pf = qf := funext fun f => (hf' f _).1 ((hf f _).2 rfl)
  have e2 : pc = qc := funext fun c => (hc' c _).1 ((hc c _).2 rfl)
  rw [e1, e2]

/-! ### The characters -/

/-- Characters whose numbers are below the surrogates. -/
def allSmall : List (List Nat) → Bool
  | [] => true
  | l :: ls => l.all (fun c => Nat.blt c 0xd800) && allSmall ls

theorem encode_decode (l : List Nat) (h : l.all (fun c => Nat.blt c 0xd800) = true) : encode (decode l) = l := by
  rw [encode, decode, String.toList_ofList, List.map_map]
  conv => rhs; rw [← List.map_id l]
  refine List.map_congr_left fun c hc => ?_
  have h' := List.all_eq_true.1 h c hc
  have h'' : c < 0xd800 := by simpa [Nat.blt_eq] using h'
  show (Char.ofNat c).toNat = c
  rw [Char.ofNat, dif_pos (Or.inl (by omega))]
  rfl

theorem map_encode {ls : List (List Nat)} {f : List String} (h : allSmall ls = true) (e : ls.map decode = f) : f.map encode = ls := by
  subst e
  induction ls with
  | nil => rfl
  | cons l ls ih =>
    rw [allSmall, Bool.and_eq_true] at h
    rw [List.map_cons, List.map_cons, encode_decode l h.1, ih h.2]

theorem lib_chars : Files.lib.map encode = Chars.lib := map_encode (by decide +kernel) Chars.lib_eq

/-- The characters of the files. -/
def charFiles : List (Nat × List (List Nat)) :=
  [(c!"aes", Chars.aes), (c!"aes_cbc", Chars.aes_cbc), (c!"common", Chars.common), (c!"hmac", Chars.hmac), (c!"pbkdf2", Chars.pbkdf2),
    (c!"pkcs7", Chars.pkcs7), (c!"salsa20", Chars.salsa20), (c!"scrypt", Chars.scrypt), (c!"sha256", Chars.sha256)]

theorem sources_chars : sources.map (fun f => (f.1, f.2.map encode)) = charFiles := by
  simp only [sources, List.map_cons, List.map_nil]
  rw [map_encode (by decide +kernel) Chars.aes_eq, map_encode (by decide +kernel) Chars.aes_cbc_eq,
    map_encode (by decide +kernel) Chars.common_eq, map_encode (by decide +kernel) Chars.hmac_eq,
    map_encode (by decide +kernel) Chars.pbkdf2_eq, map_encode (by decide +kernel) Chars.pkcs7_eq,
    map_encode (by decide +kernel) Chars.salsa20_eq, map_encode (by decide +kernel) Chars.scrypt_eq,
    map_encode (by decide +kernel) Chars.sha256_eq]
  rfl

/-! ### The items -/

theorem parseMod_eq {files : List (Nat × List (List Nat))} {m : Nat} {ls : List (List Nat)} {is : List Item}
    (h : find m files = some ls) (e : parseFile ls = some is) : parseMod files m = some (m, is) := by
  rw [parseMod, h]
  dsimp only
  rw [e]
  rfl

theorem mods_eq : modsOf Items.lib = Items.files.map Prod.fst := rfl

theorem files_eq : traverse (parseMod charFiles) (modsOf Items.lib) = some Items.files := by
  rw [mods_eq]
  exact traverse_cons (parseMod_eq rfl Items.common_eq) <| traverse_cons (parseMod_eq rfl Items.pkcs7_eq) <|
    traverse_cons (parseMod_eq rfl Items.aes_eq) <| traverse_cons (parseMod_eq rfl Items.aes_cbc_eq) <|
    traverse_cons (parseMod_eq rfl Items.hmac_eq) <| traverse_cons (parseMod_eq rfl Items.pbkdf2_eq) <|
    traverse_cons (parseMod_eq rfl Items.salsa20_eq) <| traverse_cons (parseMod_eq rfl Items.scrypt_eq) <|
    traverse_cons (parseMod_eq rfl Items.sha256_eq) <| traverse_nil _

/-! ### The program -/

/-- The functions in the order of the text. -/
def fnOrder : List Fn :=
  [.pkcs7_Pad_new, .pkcs7_Pad_write, .pkcs7_Pad_flush, .pkcs7_UnpadError_fmt, .pkcs7_UnpadError_description, .pkcs7_Unpad_new,
    .pkcs7_Unpad_write, .pkcs7_Unpad_flush, .aes_double, .aes_mul, .aes_sub_word, .aes_rot_word, .aes_expand_key,
    .aes_AESEncrypt_lookup_sbox, .aes_AESEncrypt_mix_column, .aes_AESEncrypt_shift_rows, .aes_AESEncrypt_add_round_key,
    .aes_AESEncrypt_sub_bytes, .aes_AESEncrypt_mix_columns, .aes_AESDecrypt_lookup_sbox, .aes_AESDecrypt_mix_column,
    .aes_AESDecrypt_shift_rows, .aes_AESDecrypt_add_round_key, .aes_AESDecrypt_sub_bytes, .aes_AESDecrypt_mix_columns,
    .aes_to_block, .aes_from_block, .aes_AESError_fmt, .aes_AESError_description, .aes_AES_new, .aes_AES_init, .aes_AES_encrypt,
    .aes_AES_decrypt, .aes_AES_default, .aes_cbc_Cipher_new, .aes_cbc_Cipher_init, .aes_cbc_Cipher_write, .aes_cbc_Cipher_flush,
    .aes_cbc_Cipher_encrypt_block, .aes_cbc_DecipherError_fmt, .aes_cbc_DecipherError_description, .aes_cbc_Decipher_new,
    .aes_cbc_Decipher_init, .aes_cbc_Decipher_write, .aes_cbc_Decipher_flush, .hmac_HMac_new, .hmac_HMac_update,
    .hmac_HMac_digest, .pbkdf2_pbkdf2_sha256, .salsa20_rotl, .salsa20_quarterround, .salsa20_rowround, .salsa20_columnround,
    .salsa20_doubleround, .salsa20_littleendian, .salsa20_littleendian_inv, .salsa20_salsa20, .scrypt_ScryptError_fmt,
    .scrypt_ScryptError_description, .scrypt_block_xor, .scrypt_integerify, .scrypt_Scrypt_new, .scrypt_Scrypt_block_mix,
    .scrypt_Scrypt_ro_mix, .scrypt_Scrypt_derive, .sha256_ch, .sha256_maj, .sha256_rotr, .sha256_bsig0, .sha256_bsig1,
    .sha256_ssig0, .sha256_ssig1, .sha256_fill_block, .sha256_write_u64_be, .sha256_SHA256_new, .sha256_SHA256_process_block,
    .sha256_SHA256_update, .sha256_SHA256_digest, .sha256_SHA256_default]

/-- The constants in the order of the text. -/
def constOrder : List Const :=
  [.aes_BLOCK_SIZE, .aes_NB, .aes_SBOX, .aes_INV_SBOX, .aes_RCON, .salsa20_BLOCK_SIZE, .scrypt_SALSA_ROUNDS, .scrypt_PBKDF2_ROUNDS,
    .scrypt_BLOCK_SIZE, .sha256_DIGEST_SIZE, .sha256_BLOCK_SIZE, .sha256_K, .sha256_H]

theorem translate_eq : translate Files.lib sources =
    some (fnOrder.map (fun f => (f, crateFn f)), constOrder.map (fun c => (c, crateConst c))) := by
  rw [translate, lib_chars, sources_chars, translateChars, Items.lib_eq]
  dsimp only
  rw [files_eq]
  dsimp only
  rw [translateItems, Items.env_eq, Items.defs_eq]
  rw [if_pos (by decide +kernel), Functions.functions_eq, Functions.functions, Functions.constants_eq, Functions.constants]
  rfl

/-- The text of the files is the program `crate`. -/
theorem isProgram_crate : IsProgram Files.lib sources crate := by
  refine ⟨_, _, translate_eq, fun f d => ?_, fun c e => ?_⟩
  · rw [List.mem_map]
    constructor
    · rintro ⟨f', _, h⟩
      cases h
      rfl
    · rintro rfl
      exact ⟨f, by cases f <;> decide, rfl⟩
  · rw [List.mem_map]
    constructor
    · rintro ⟨c', _, h⟩
      cases h
      rfl
    · rintro rfl
      exact ⟨c, by cases c <;> decide, rfl⟩

end Verif.Text

