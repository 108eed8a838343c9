import Verif.Props.Hmac
import Verif.Props.Scrypt

/-! Property C46: passwords that act as the same key. -/

namespace Verif.Props.Password
open Verif Verif.Sha256 Verif.Hmac Verif.Pbkdf2 Verif.Scrypt
open Verif.Props.Hmac (C07_zero_extended_key C07_long_key)

theorem pbkdf2_of_key (T : Target) (P P' : List U8) (h : HMac.new T P = HMac.new T P') (S : List U8) (c : Nat)
    (out : List U8) : pbkdf2_sha256 T P S c out = pbkdf2_sha256 T P' S c out := by
  unfold pbkdf2_sha256 derive_block
  rw [h]

theorem scrypt_of_key (T : Target) (P P' : List U8) (h : HMac.new T P = HMac.new T P') (s : Scrypt)
    (S out : List U8) : s.derive T P S out = s.derive T P' S out := by
  unfold Scrypt.derive
  simp only [pbkdf2_of_key T P P' h]

/-- **C46.** A password of at most 64 bytes and the same password followed by zero bytes, up to 64 bytes in all, are the same
password for PBKDF2: same outcome for every salt, iteration count and output buffer. -/
theorem C46_pbkdf2_zero_extended (T : Target) (P : List U8) (n : Nat) (h : P.length + n ≤ 64) (S : List U8) (c : Nat)
    (out : List U8) : pbkdf2_sha256 T (P ++ List.replicate n 0) S c out = pbkdf2_sha256 T P S c out :=
  pbkdf2_of_key T _ _ (C07_zero_extended_key T P n h) S c out

example (T : Target) (S out : List U8) :
    pbkdf2_sha256 T [0x70, 0x77, 0, 0] S 1000 out = pbkdf2_sha256 T [0x70, 0x77] S 1000 out :=
  C46_pbkdf2_zero_extended T [0x70, 0x77] 2 (by decide) S 1000 out

/-- **C46.** A password longer than 64 bytes acts in PBKDF2 like its 32-byte SHA-256 hash. -/
theorem C46_pbkdf2_long (T : Target) (P : List U8) (h : 64 < P.length) (hb : 8 * P.length < 2 ^ T.bits) (S : List U8)
    (c : Nat) (out : List U8) :
    pbkdf2_sha256 T P S c out = pbkdf2_sha256 T (Spec.Sha256.sha256 P) S c out :=
  pbkdf2_of_key T _ _ (C07_long_key T P h hb) S c out

/-- A password of 65 bytes. -/
example (T : Target) := C46_pbkdf2_long T (List.replicate 65 1) (by decide) (by rcases T with ⟨_ | _, _ | _⟩ <;> decide) [7] 1000 (List.replicate 40 0)

/-- **C46.** Zero bytes at the end of a short passphrase do not matter to scrypt, whatever the parameters. -/
theorem C46_scrypt_zero_extended (T : Target) (r n p : Nat) (P : List U8) (z : Nat) (h : P.length + z ≤ 64)
    (S out : List U8) :
    (Scrypt.new r n p).derive T (P ++ List.replicate z 0) S out = (Scrypt.new r n p).derive T P S out :=
  scrypt_of_key T _ _ (C07_zero_extended_key T P z h) _ S out

/-- A password of 8 bytes and one of 64. -/
example (T : Target) := C46_scrypt_zero_extended T 8 16384 1 [112, 97, 115, 115, 119, 111, 114, 100] 56 (by decide) [7] (List.replicate 64 0)

/-- **C46.** A passphrase longer than 64 bytes acts in scrypt like its 32-byte SHA-256 hash. -/
theorem C46_scrypt_long (T : Target) (r n p : Nat) (P : List U8) (h : 64 < P.length) (hb : 8 * P.length < 2 ^ T.bits)
    (S out : List U8) :
    (Scrypt.new r n p).derive T P S out = (Scrypt.new r n p).derive T (Spec.Sha256.sha256 P) S out :=
  scrypt_of_key T _ _ (C07_long_key T P h hb) _ S out

/-- A 65-byte passphrase and a 32-byte passphrase that derive the same key, on every target. -/
example (T : Target) (b : U8) (S out : List U8) :
    (Scrypt.new 8 1024 1).derive T (List.replicate 65 b) S out =
      (Scrypt.new 8 1024 1).derive T (Spec.Sha256.sha256 (List.replicate 65 b)) S out :=
  C46_scrypt_long T 8 1024 1 _ (by rw [List.length_replicate]; decide)
    (by have := T.two_pow_ge; rw [List.length_replicate]; omega) S out

end Verif.Props.Password
