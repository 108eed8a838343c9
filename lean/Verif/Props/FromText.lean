import Verif.Text.Program
import Verif.Props.SourceHash
import Verif.Props.SourceScrypt
import Verif.Props.SourceCbc

/-!
Property C86: the program that is written in the files of `/repo/src`, read character by character by the front end of `Verif/Text`,
computes the standards. Nothing here mentions the definitions generated by `tools/rust2lean.py`: the program is any `p` that is what the
text says. `Verif/Text/Files.lean` is a copy of the files.
-/

namespace Verif.Props.FromText
open Verif Verif.Source Verif.Text Verif.Props.Source

/-- `obj.f(args)` in the program `p`. -/
def invokeIn (p : Program) (T : Target) (fuel depth : Nat) (obj : Val) (c : Fn × List Val) : Verif.Source.R (Val × Val) :=
  call T p fuel depth c.1 (obj :: c.2) >>= fun (v, outs) =>
    match outs with
    | [] => .ok (obj, v)
    | [obj'] => .ok (obj', v)
    | _ => .error .stuck

/-- Methods called one after the other on the same object, and their results. -/
def historyIn (p : Program) (T : Target) (fuel depth : Nat) : Val → List (Fn × List Val) → Verif.Source.R (List Val)
  | _, [] => .ok []
  | obj, c :: cs =>
    invokeIn p T fuel depth obj c >>= fun (obj', v) =>
      historyIn p T fuel depth obj' cs >>= fun vs => .ok (v :: vs)

/-- A constructor, and then methods on the new object: the results of the methods. -/
def sessionIn (p : Program) (T : Target) (fuel depth : Nat) (new : Fn × List Val) (calls : List (Fn × List Val)) :
    Verif.Source.R (List Val) :=
  call T p fuel depth new.1 new.2 >>= fun (obj, _) => historyIn p T fuel depth obj calls

theorem historyIn_crate (T : Target) (fuel depth : Nat) (obj : Val) (calls : List (Fn × List Val)) :
    historyIn crate T fuel depth obj calls = history T fuel depth obj calls := by
  induction calls generalizing obj with
  | nil => rfl
  | cons c cs ih =>
    rw [historyIn, history]
    show invoke T fuel depth obj c >>= _ = invoke T fuel depth obj c >>= _
    congr 1
    funext r
    obtain ⟨obj', v⟩ := r
    dsimp only
    rw [ih]

theorem sessionIn_crate (T : Target) (fuel depth : Nat) (new : Fn × List Val) (calls : List (Fn × List Val)) :
    sessionIn crate T fuel depth new calls = session T fuel depth new calls := by
  rw [sessionIn, session]
  congr 1
  funext r
  exact historyIn_crate T fuel depth r.1 calls

/-- **C86.** There is a program that the files say, and only one. So the theorems below speak about something, and the theorems C62 to C85,
about `crate`, speak about the text. -/
theorem C86_text : IsProgram Files.lib sources crate ∧ ∀ p, IsProgram Files.lib sources p → p = crate :=
  ⟨isProgram_crate, fun _ h => h.unique isProgram_crate⟩

variable {p : Program} (hp : IsProgram Files.lib sources p)
include hp

/-- **C86.** `SHA256` in the text computes SHA-256. -/
theorem C86_sha256 (T : Target) (fuel depth : Nat) (hd : 8 ≤ depth) (chunks : List (List U8))
    (h : 8 * chunks.flatten.length < 2 ^ T.bits) :
    sessionIn p T fuel depth (.sha256_SHA256_new, [])
        (chunks.map (fun c => (.sha256_SHA256_update, [bytes c])) ++ [(.sha256_SHA256_digest, [])]) =
      .ok (chunks.map (fun _ => Val.unit) ++ [bytes (Spec.Sha256.sha256 chunks.flatten)]) := by
  rw [C86_text.2 p hp, sessionIn_crate]
  exact C62_source_sha256 T fuel depth hd chunks h

/-- **C86.** `HMac` in the text computes HMAC-SHA-256. -/
theorem C86_hmac (T : Target) (fuel depth : Nat) (hd : 8 ≤ depth) (key : List U8) (chunks : List (List U8))
    (hk : 8 * key.length < 2 ^ T.bits) (hm : 8 * (64 + chunks.flatten.length) < 2 ^ T.bits) :
    sessionIn p T fuel depth (.hmac_HMac_new, [bytes key])
        (chunks.map (fun c => (.hmac_HMac_update, [bytes c])) ++ [(.hmac_HMac_digest, [])]) =
      .ok (chunks.map (fun _ => Val.unit) ++ [bytes (Spec.hmac Spec.Sha256.sha256 key chunks.flatten)]) := by
  rw [C86_text.2 p hp, sessionIn_crate]
  exact C63_source_hmac T fuel depth hd key chunks hk hm

/-- **C86.** `pbkdf2_sha256` in the text computes PBKDF2. -/
theorem C86_pbkdf2 (T : Target) (fuel depth : Nat) (hd : 8 ≤ depth) (P S : List U8) (c : Nat) (out : List U8)
    (hc : 1 ≤ c) (hP : 8 * P.length < 2 ^ T.bits) (hS : 8 * (64 + S.length + 4) < 2 ^ T.bits)
    (hout : out.length ≤ T.isizeMax) (hlen : out.length ≤ (2 ^ 32 - 1) * 32) :
    call T p fuel depth .pbkdf2_pbkdf2_sha256 [bytes P, bytes S, .usize c, bytes out] =
      .ok (.unit, [bytes (Spec.Pbkdf2.pbkdf2HmacSha256 P S c out.length)]) := by
  rw [C86_text.2 p hp]
  exact C64_source_pbkdf2 T fuel depth hd P S c out hc hP hS hout hlen

/-- **C86.** `salsa20` in the text computes the Salsa20 core. -/
theorem C86_salsa20 (T : Target) (fuel depth : Nat) (hd : 8 ≤ depth) (input output : List U8) (rounds : Nat)
    (hi : 64 ≤ input.length) (ho : 64 ≤ output.length) :
    call T p fuel depth .salsa20_salsa20 [bytes input, .usize rounds, bytes output] =
      .ok (.unit, [bytes (Spec.Salsa20.core rounds (input.take 64) ++ output.drop 64)]) := by
  rw [C86_text.2 p hp]
  exact C65_source_salsa20 T fuel depth hd input output rounds hi ho

/-- An output buffer that is longer than needed. -/
example (T : Target) := C86_salsa20 C86_text.1 T 0 8 (Nat.le_refl 8) (List.replicate 64 1) (List.replicate 70 0) 8 (by decide) (by decide)

/-- **C86.** `Scrypt` in the text computes scrypt. -/
theorem C86_scrypt (T : Target) (fuel depth : Nat) (hd : 8 ≤ depth) (r n k : Nat) (P S out : List U8)
    (hr : 1 ≤ r) (hn : ∃ k, n = 2 ^ k) (hk : 1 ≤ k)
    (hmem : k * 128 * r ≤ T.isizeMax) (htab : n * T.vecSize ≤ T.isizeMax) (hP : 8 * P.length < 2 ^ T.bits)
    (hS : 8 * (64 + S.length + 4) < 2 ^ T.bits) (hB : 8 * (64 + k * 128 * r + 4) < 2 ^ T.bits)
    (hout : out.length ≤ T.isizeMax) :
    (call T p fuel depth .scrypt_Scrypt_new [.usize r, .usize n, .usize k] >>= fun (self, _) =>
        call T p fuel depth .scrypt_Scrypt_derive [self, bytes P, bytes S, bytes out]) =
      .ok (.enum .Ok [.unit], [bytes (Spec.Scrypt.scrypt P S n r k out.length)]) := by
  rw [C86_text.2 p hp]
  exact C66_source_scrypt T fuel depth hd r n k P S out hr hn hk hmem htab hP hS hB hout

/-- **C86.** `AES` in the text answers every history of calls as FIPS-197 says for the key of the most recent successful `init`. -/
theorem C86_aes (T : Target) (fuel depth : Nat) (hf : 65 ≤ fuel) (hd : 8 ≤ depth) (cs : List Verif.Props.Aes.Call) :
    sessionIn p T fuel depth (.aes_AES_new, []) (cs.map aesCall) = .ok (aesAnswers none cs) := by
  rw [C86_text.2 p hp, sessionIn_crate]
  exact C67_source_aes T fuel depth hf hd cs

/-- Two keys, one of them refused. -/
example (T : Target) (b : Vector U8 16) := C86_aes C86_text.1 T 65 8 (by decide) (by decide) [.init (List.replicate 32 1), .init [3], .encrypt b]

/-- **C86.** `Cipher` in the text computes AES-CBC with PKCS#7 padding, whatever way the message is cut. -/
theorem C86_encrypt (T : Target) (fuel depth : Nat) (hf : 65 ≤ fuel) (hd : 8 ≤ depth) (iv : Vector U8 16)
    (key : List U8) (hk : key.length = 16 ∨ key.length = 24 ∨ key.length = 32) (chunks : List (List U8))
    (hx : ∀ b ∈ chunks, b.length + 16 ≤ T.isizeMax) :
    ∃ (rs : List (List U8)) (last : List U8),
      sessionIn p T fuel depth (.aes_cbc_Cipher_new, [bytes iv.toList]) ((messageCalls key chunks).map cipherCall) =
        .ok (okVal .unit :: (rs.map (fun o => okVal (bytes o)) ++ [okVal (bytes last)])) ∧
      rs.flatten ++ last = Spec.Cbc.encrypt key iv.toList (Spec.Cbc.pkcs7 16 chunks.flatten) := by
  rw [C86_text.2 p hp, sessionIn_crate]
  exact C69_source_encrypt T fuel depth hf hd iv key hk chunks hx

/-- A message in three parts. -/
example (T : Target) (iv : Vector U8 16) := C86_encrypt C86_text.1 T 65 8 (by decide) (by decide) iv (List.replicate 24 7) (.inr (.inl rfl))
  [[1, 2], [], List.replicate 40 3] (by
    have hi : 2 ^ 31 - 1 ≤ T.isizeMax := by rcases T.bits_cases with h | h <;> simp [Target.isizeMax, h]
    intro b hb
    simp only [List.mem_cons, List.not_mem_nil, or_false] at hb
    rcases hb with rfl | rfl | rfl <;> simp <;> omega)

/-- **C86.** `Decipher` in the text gives the message back, whatever way the ciphertext is cut. -/
theorem C86_decrypt (T : Target) (fuel depth : Nat) (hf : 65 ≤ fuel) (hd : 8 ≤ depth) (iv : Vector U8 16)
    (key : List U8) (hk : key.length = 16 ∨ key.length = 24 ∨ key.length = 32) (m : List U8) (chunks : List (List U8))
    (hx : ∀ b ∈ chunks, b.length + 16 ≤ T.isizeMax)
    (hc : chunks.flatten = Spec.Cbc.encrypt key iv.toList (Spec.Cbc.pkcs7 16 m)) :
    ∃ (rs : List (List U8)) (last : List U8),
      sessionIn p T fuel depth (.aes_cbc_Decipher_new, [bytes iv.toList]) ((messageCalls key chunks).map decipherCall) =
        .ok (okVal .unit :: (rs.map (fun o => okVal (bytes o)) ++ [okVal (bytes last)])) ∧
      rs.flatten ++ last = m := by
  rw [C86_text.2 p hp, sessionIn_crate]
  exact C69_source_round_trip T fuel depth hf hd iv key hk m chunks hx hc

/-- The ciphertext of a message, cut after its first five bytes. -/
example (T : Target) (iv : Vector U8 16) (m c : List U8) (hm : m.length = 20) (hc : c = Spec.Cbc.encrypt (List.replicate 16 7) iv.toList (Spec.Cbc.pkcs7 16 m)) :=
  C86_decrypt C86_text.1 T 65 8 (by decide) (by decide) iv (List.replicate 16 7) (.inl rfl) m [c.take 5, c.drop 5] (by
    have hi : 2 ^ 31 - 1 ≤ T.isizeMax := by rcases T.bits_cases with h | h <;> simp [Target.isizeMax, h]
    have hl : c.length = 32 := by rw [hc, Verif.AesCbc.encrypt_length, Verif.AesCbc.pkcs7_length, hm]
    intro b hb
    simp only [List.mem_cons, List.not_mem_nil, or_false] at hb
    rcases hb with rfl | rfl <;> simp <;> omega) (by simp [hc])

omit hp in
/-- A message in two pieces, hashed by the program in the text. -/
example (T : Target) : ∃ p, IsProgram Files.lib sources p ∧
    sessionIn p T 1 8 (.sha256_SHA256_new, [])
        [(.sha256_SHA256_update, [bytes [97]]), (.sha256_SHA256_update, [bytes [98, 99]]), (.sha256_SHA256_digest, [])] =
      .ok [.unit, .unit, bytes (Spec.Sha256.sha256 [97, 98, 99])] :=
  ⟨crate, C86_text.1, C86_sha256 C86_text.1 T 1 8 (by decide) [[97], [98, 99]] (by
    cases h : T.width <;> simp [Target.bits, Width.bits, h])⟩

end Verif.Props.FromText
