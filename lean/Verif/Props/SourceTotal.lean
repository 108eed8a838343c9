import Verif.Props.SourceHash
import Verif.Props.SourceScrypt
import Verif.Props.SourceCbc

/-!
Properties C70 and C71, on the text of the crate: every call and every history ends with a value or a Rust panic, and the
messages of the errors.
-/

namespace Verif.Props.Source
open Verif Verif.Source

/-- The evaluation ends, with a value or a Rust panic that does not depend on the bounds of the evaluator, once they allow
`while` loops of 65 tests and 8 nested calls. It is never stuck on an ill-typed operation. -/
def Settles {α : Type} (run : (fuel depth : Nat) → R α) : Prop :=
  (∃ v, ∀ fuel depth, 65 ≤ fuel → 8 ≤ depth → run fuel depth = .ok v) ∨
  (∃ p, ∀ fuel depth, 65 ≤ fuel → 8 ≤ depth → run fuel depth = .error (.panic p))

theorem Settles.of_up {α : Type} {run : Nat → Nat → R α} (o : M α)
    (h : ∀ fuel depth, 65 ≤ fuel → 8 ≤ depth → run fuel depth = up o) : Settles run := by
  cases o with
  | ok v => exact .inl ⟨v, h⟩
  | error p => exact .inr ⟨p, h⟩

theorem Settles.of_ok {α : Type} {run : Nat → Nat → R α} (v : α)
    (h : ∀ fuel depth, 65 ≤ fuel → 8 ≤ depth → run fuel depth = .ok v) : Settles run := .inl ⟨v, h⟩

/-- **C70.** Histories of `SHA256`. -/
theorem C70_sha256 (T : Target) (ops : List Sha256.Op) :
    Settles fun fuel depth => session T fuel depth (.sha256_SHA256_new, []) (ops.map shaCall) :=
  .of_up _ fun fuel depth _ hd => sha_session T fuel depth hd ops

/-- **C70.** Histories of `HMac`. -/
theorem C70_hmac (T : Target) (key : List U8) (ops : List Hmac.Op) :
    Settles fun fuel depth => session T fuel depth (.hmac_HMac_new, [bytes key]) (ops.map hmacCall) :=
  .of_up _ fun fuel depth _ hd => hmac_session T fuel depth hd key ops

/-- **C70.** `pbkdf2_sha256`. -/
theorem C70_pbkdf2 (T : Target) (P S : List U8) (c : Nat) (out : List U8) (hout : out.length ≤ T.isizeMax) :
    Settles fun fuel depth => call T crate fuel depth .pbkdf2_pbkdf2_sha256 [bytes P, bytes S, .usize c, bytes out] := by
  refine .of_up (Verif.Pbkdf2.pbkdf2_sha256 T P S c out >>= fun o => .ok (.unit, [bytes o])) fun fuel depth _ hd => ?_
  obtain ⟨d, rfl⟩ := Nat.exists_eq_add_of_le' hd
  rw [src_pbkdf2 T fuel (d + 1) P S out c hout]
  cases Verif.Pbkdf2.pbkdf2_sha256 T P S c out <;> rfl

/-- **C70.** `salsa20`. -/
theorem C70_salsa20 (T : Target) (input output : List U8) (rounds : Nat) :
    Settles fun fuel depth => call T crate fuel depth .salsa20_salsa20 [bytes input, .usize rounds, bytes output] := by
  refine .of_up (Verif.Salsa20.salsa20 input rounds output >>= fun o => .ok (.unit, [bytes o])) fun fuel depth _ hd => ?_
  obtain ⟨d, rfl⟩ := Nat.exists_eq_add_of_le' hd
  rw [src_salsa20]
  cases Verif.Salsa20.salsa20 input rounds output <;> rfl

/-- **C70.** `Scrypt::new` and `derive`, with any parameters. -/
theorem C70_scrypt (T : Target) (r n p : Nat) (P S out : List U8) (hout : out.length ≤ T.isizeMax) :
    Settles fun fuel depth =>
      call T crate fuel depth .scrypt_Scrypt_new [.usize r, .usize n, .usize p] >>= fun (self, _) =>
        call T crate fuel depth .scrypt_Scrypt_derive [self, bytes P, bytes S, bytes out] := by
  refine .of_up (((Verif.Scrypt.Scrypt.new r n p).derive T P S out) >>= fun res =>
    .ok (match res.2 with | .ok _ => .enum .Ok [.unit] | .error e => .enum .Err [encScryptError e], [bytes res.1]))
    fun fuel depth _ hd => ?_
  obtain ⟨d, rfl⟩ := Nat.exists_eq_add_of_le' hd
  rw [src_Scrypt_new]
  show call T crate fuel (d + 8) .scrypt_Scrypt_derive _ = _
  rw [src_derive T fuel d _ P S out hout]
  cases (Verif.Scrypt.Scrypt.new r n p).derive T P S out with
  | error q => rfl
  | ok res => obtain ⟨b, x | u⟩ := res <;> rfl

/-- **C70.** Histories of `AES`. -/
theorem C70_aes (T : Target) (cs : List Verif.Props.Aes.Call) :
    Settles fun fuel depth => session T fuel depth (.aes_AES_new, []) (cs.map aesCall) :=
  .of_ok _ fun fuel depth hf hd => C67_source_aes T fuel depth hf hd cs

/-- **C70.** Histories of `Cipher`. -/
theorem C70_cipher (T : Target) (iv : Vector U8 16) (calls : List Spec.Cbc.Call) (hx : ∀ x ∈ calls, Reasonable T x) :
    Settles fun fuel depth => session T fuel depth (.aes_cbc_Cipher_new, [bytes iv.toList]) (calls.map cipherCall) :=
  .of_ok _ fun fuel depth hf hd => C68_source_cipher T fuel depth hf hd iv calls hx

/-- **C70.** Histories of `Decipher`. -/
theorem C70_decipher (T : Target) (iv : Vector U8 16) (calls : List Spec.Cbc.Call) (hx : ∀ x ∈ calls, Reasonable T x) :
    Settles fun fuel depth => session T fuel depth (.aes_cbc_Decipher_new, [bytes iv.toList]) (calls.map decipherCall) :=
  .of_ok _ fun fuel depth hf hd => C68_source_decipher T fuel depth hf hd iv calls hx

/-- The four theorems with hypotheses, applied: to a key of 40 bytes, -/
example (T : Target) (P S : List U8) := C70_pbkdf2 T P S 1000 (List.replicate 40 0) (by rcases T with ⟨_ | _, _ | _⟩ <;> decide)

/-- to the same with parameters that are not valid, -/
example (T : Target) (P S : List U8) := C70_scrypt T 8 1000 1 P S (List.replicate 40 0) (by rcases T with ⟨_ | _, _ | _⟩ <;> decide)

/-- and to a history with a wrong key and an unfinished block. -/
example (T : Target) (iv : Vector U8 16) :=
  have h : ∀ x ∈ [Spec.Cbc.Call.init [1, 2, 3], .write (List.replicate 20 7), .init (List.replicate 16 1), .write [1], .flush], Reasonable T x := by
    have : 36 ≤ T.isizeMax := by rcases T.bits_cases with h | h <;> simp [Target.isizeMax, h]
    intro x hx b hb
    subst hb
    simp at hx
    rcases hx with rfl | rfl <;> simp <;> omega
  And.intro (C70_cipher T iv _ h) (C70_decipher T iv _ h)

/-- An evaluation that needs more nested calls than the bound does not settle: the claim is not vacuous. -/
example : ¬ Settles fun _ depth => if depth < 9 then (.error .fuel : R Val) else .ok .unit := by
  rintro (⟨v, h⟩ | ⟨p, h⟩) <;> simpa using h 65 8 (Nat.le_refl _) (Nat.le_refl _)

/-! C71: what an error says -/

/-- What the four error types say: the values of the type, each with its description. -/
structure Messages where
  description : Fn
  fmt : Fn
  name : String
  table : List (Val × String)

def aesMessages : List (Val × String) :=
  [(.enum .AESError_InvalidKeySize [], "key size must be either of: 128, 192, or 256 bits"),
   (.enum .AESError_NotInitialized [], "AES instance must be initialized prior to use")]

def unpadMessages : List (Val × String) :=
  [(.enum .UnpadError_UnfinishedBlock [], "data length must be a multiple of block size"),
   (.enum .UnpadError_InvalidPadding [], "final block contains invalid padding")]

/-- A `DecipherError` wraps one of the two other errors and has its description. -/
def decipherMessages : List (Val × String) :=
  aesMessages.map (fun m => (.enum .DecipherError_AES [m.1], m.2)) ++
  unpadMessages.map (fun m => (.enum .DecipherError_PKCS7 [m.1], m.2))

/-- The texts say "larger than 1"; C17 and C66 show that the values rejected are those smaller than 1. -/
def scryptMessages : List (Val × String) :=
  [(.enum .ScryptError_RIsTooSmall [], "`r` must be larger than 1"),
   (.enum .ScryptError_NIsTooSmall [], "`n` must be larger than 1"),
   (.enum .ScryptError_NIsNotAPowerOfTwo [], "`n` must be a power of two"),
   (.enum .ScryptError_PIsTooSmall [], "`p` must be larger than 1")]

/-- The error types of the crate. -/
def errorTypes : List Messages :=
  [⟨.aes_AESError_description, .aes_AESError_fmt, "AESError", aesMessages⟩,
   ⟨.pkcs7_UnpadError_description, .pkcs7_UnpadError_fmt, "UnpadError", unpadMessages⟩,
   ⟨.aes_cbc_DecipherError_description, .aes_cbc_DecipherError_fmt, "DecipherError", decipherMessages⟩,
   ⟨.scrypt_ScryptError_description, .scrypt_ScryptError_fmt, "ScryptError", scryptMessages⟩]

/-- **C71.** For every error of every error type, `description()` returns its text, and displaying it appends the name of the
type, a colon, a space and that text to what the formatter already holds, and succeeds. -/
theorem C71_messages (T : Target) (fuel depth : Nat) (hd : 8 ≤ depth) (t : Messages) (ht : t ∈ errorTypes)
    (e : Val) (text : String) (he : (e, text) ∈ t.table) (s : String) :
    call T crate fuel depth t.description [e] = .ok (.str text, []) ∧
    call T crate fuel depth t.fmt [e, .str s] = .ok (okVal .unit, [.str (s ++ (t.name ++ ": " ++ text))]) := by
  obtain ⟨d, rfl⟩ := Nat.exists_eq_add_of_le' hd
  simp only [errorTypes, List.mem_cons, List.not_mem_nil, or_false] at ht
  rcases ht with rfl | rfl | rfl | rfl
  · simp only [aesMessages, List.mem_cons, List.not_mem_nil, or_false, Prod.mk.injEq] at he
    rcases he with ⟨rfl, rfl⟩ | ⟨rfl, rfl⟩
    · exact ⟨src_AESError_description T fuel (d + 7) .InvalidKeySize, src_AESError_fmt T fuel (d + 6) .InvalidKeySize s⟩
    · exact ⟨src_AESError_description T fuel (d + 7) .NotInitialized, src_AESError_fmt T fuel (d + 6) .NotInitialized s⟩
  · simp only [unpadMessages, List.mem_cons, List.not_mem_nil, or_false, Prod.mk.injEq] at he
    rcases he with ⟨rfl, rfl⟩ | ⟨rfl, rfl⟩
    · exact ⟨src_UnpadError_description T fuel (d + 7) .UnfinishedBlock, src_UnpadError_fmt T fuel (d + 6) .UnfinishedBlock s⟩
    · exact ⟨src_UnpadError_description T fuel (d + 7) .InvalidPadding, src_UnpadError_fmt T fuel (d + 6) .InvalidPadding s⟩
  · simp only [decipherMessages, aesMessages, unpadMessages, List.map_cons, List.map_nil, List.cons_append, List.nil_append,
      List.mem_cons, List.not_mem_nil, or_false, Prod.mk.injEq] at he
    rcases he with ⟨rfl, rfl⟩ | ⟨rfl, rfl⟩ | ⟨rfl, rfl⟩ | ⟨rfl, rfl⟩
    · exact ⟨src_DecipherError_description T fuel (d + 6) (.AES .InvalidKeySize),
        src_DecipherError_fmt T fuel (d + 5) (.AES .InvalidKeySize) s⟩
    · exact ⟨src_DecipherError_description T fuel (d + 6) (.AES .NotInitialized),
        src_DecipherError_fmt T fuel (d + 5) (.AES .NotInitialized) s⟩
    · exact ⟨src_DecipherError_description T fuel (d + 6) (.PKCS7 .UnfinishedBlock),
        src_DecipherError_fmt T fuel (d + 5) (.PKCS7 .UnfinishedBlock) s⟩
    · exact ⟨src_DecipherError_description T fuel (d + 6) (.PKCS7 .InvalidPadding),
        src_DecipherError_fmt T fuel (d + 5) (.PKCS7 .InvalidPadding) s⟩
  · simp only [scryptMessages, List.mem_cons, List.not_mem_nil, or_false, Prod.mk.injEq] at he
    rcases he with ⟨rfl, rfl⟩ | ⟨rfl, rfl⟩ | ⟨rfl, rfl⟩ | ⟨rfl, rfl⟩
    · exact ⟨src_description T fuel (d + 7) .RIsTooSmall, src_ScryptError_fmt T fuel (d + 6) .RIsTooSmall s⟩
    · exact ⟨src_description T fuel (d + 7) .NIsTooSmall, src_ScryptError_fmt T fuel (d + 6) .NIsTooSmall s⟩
    · exact ⟨src_description T fuel (d + 7) .NIsNotAPowerOfTwo, src_ScryptError_fmt T fuel (d + 6) .NIsNotAPowerOfTwo s⟩
    · exact ⟨src_description T fuel (d + 7) .PIsTooSmall, src_ScryptError_fmt T fuel (d + 6) .PIsTooSmall s⟩

/-- The error a `Decipher` returns for bad padding, displayed after some other text. -/
example (T : Target) (fuel : Nat) :
    call T crate fuel 8 .aes_cbc_DecipherError_fmt
        [.enum .DecipherError_PKCS7 [.enum .UnpadError_InvalidPadding []], .str "failed: "] =
      .ok (okVal .unit, [.str "failed: DecipherError: final block contains invalid padding"]) :=
  (C71_messages T fuel 8 (Nat.le_refl 8) ⟨.aes_cbc_DecipherError_description, .aes_cbc_DecipherError_fmt, "DecipherError",
    decipherMessages⟩ (by simp [errorTypes]) _ "final block contains invalid padding"
    (by simp [decipherMessages, unpadMessages]) "failed: ").2

end Verif.Props.Source
