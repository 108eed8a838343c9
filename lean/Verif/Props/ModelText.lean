import Verif.Props.FromText

/-!
Property C87: the hand-written model, about which C01 to C61 are proved, gives for every history of calls of the public API exactly the
results, and the panics, of the program that is written in the files of `/repo/src`. The two are defined apart from each other: the model
function by function by hand (`Verif/Model`), the program by reading the text (`Verif/Text`) and running it (`Verif/Source/Semantics.lean`).
-/

namespace Verif.Props.ModelText
open Verif Verif.Source Verif.Text Verif.Props.Source Verif.Props.FromText
open Verif.Sha256 Verif.Hmac Verif.Pbkdf2 Verif.Salsa20 Verif.Scrypt Verif.Aes Verif.AesCbc

/-- The result of a call on an `AES` of the model as a value of the program. -/
def aesVal (c : Verif.Props.Aes.Call) (r : Verif.Props.Aes.Result) : Val :=
  match c, r with
  | .init _, .ok _ => okVal .unit
  | _, .ok o => okVal (bytes o)
  | _, .error .InvalidKeySize => errVal (.enum .AESError_InvalidKeySize [])
  | _, .error .NotInitialized => errVal (.enum .AESError_NotInitialized [])

theorem aesAnswer_eq (cur : Option (List U8)) (c : Verif.Props.Aes.Call) :
    aesAnswer cur c = aesVal c (Verif.Props.Aes.expected cur c) := by
  cases c with
  | init key =>
    simp only [aesAnswer, Verif.Props.Aes.expected]
    split <;> rfl
  | encrypt b => cases cur <;> rfl
  | decrypt b => cases cur <;> rfl

theorem aesAnswers_length (cur : Option (List U8)) (cs : List Verif.Props.Aes.Call) : (aesAnswers cur cs).length = cs.length := by
  induction cs generalizing cur with
  | nil => rfl
  | cons c cs ih => simp [aesAnswers, ih]

theorem aesAnswers_get (cur : Option (List U8)) (cs : List Verif.Props.Aes.Call) (i : Nat) (h1 : i < (aesAnswers cur cs).length)
    (h2 : i < cs.length) :
    (aesAnswers cur cs)[i] = aesVal cs[i] (Verif.Props.Aes.expected (Verif.Props.Aes.lastKey cur (cs.take i)) cs[i]) := by
  induction cs generalizing cur i with
  | nil => simp at h2
  | cons c cs ih =>
    cases i with
    | zero => exact aesAnswer_eq cur c
    | succ i =>
      simp only [aesAnswers, List.getElem_cons_succ, List.take_succ_cons]
      rw [ih _ _ _ (by simpa using h2)]
      cases c <;> rfl

theorem aesAnswers_eq (cs : List Verif.Props.Aes.Call) (rs : List Verif.Props.Aes.Result) (hl : rs.length = cs.length)
    (h : ∀ i (h1 : i < rs.length) (h2 : i < cs.length),
      rs[i] = Verif.Props.Aes.expected (Verif.Props.Aes.lastKey none (cs.take i)) cs[i]) :
    aesAnswers none cs = List.zipWith aesVal cs rs := by
  apply List.ext_getElem
  · simp [aesAnswers_length, hl]
  · intro i h1 h2
    have h3 : i < cs.length := by simpa [aesAnswers_length] using h1
    rw [aesAnswers_get none cs i h1 h3, List.getElem_zipWith, h i (by omega) h3]

variable {p : Program} (hp : IsProgram Files.lib sources p)
include hp

/-- **C87.** `SHA256`: every history of `update` and `digest`, in any order, has the same digests, and the same panic if there is one. -/
theorem C87_sha256 (T : Target) (fuel depth : Nat) (hd : 8 ≤ depth) (ops : List Verif.Props.Sha256.Op) :
    sessionIn p T fuel depth (.sha256_SHA256_new, []) (ops.map shaCall) = up (steps (shaStep T) SHA256.new ops) := by
  rw [C86_text.2 p hp, sessionIn_crate]
  exact sha_session T fuel depth hd ops

/-- Any message. -/
example (T : Target) (m : List U8) := C87_sha256 C86_text.1 T 0 8 (Nat.le_refl 8) [.update m, .digest, .digest]

/-- **C87.** `HMac`: likewise, and `HMac::new` panics for the same keys. -/
theorem C87_hmac (T : Target) (fuel depth : Nat) (hd : 8 ≤ depth) (key : List U8) (ops : List Verif.Props.Hmac.Op) :
    sessionIn p T fuel depth (.hmac_HMac_new, [bytes key]) (ops.map hmacCall) =
      up (HMac.new T key >>= fun s => steps (hmacStep T) s ops) := by
  rw [C86_text.2 p hp, sessionIn_crate]
  exact hmac_session T fuel depth hd key ops

/-- Any key and message. -/
example (T : Target) (key m : List U8) := C87_hmac C86_text.1 T 0 8 (Nat.le_refl 8) key [.update m, .digest, .digest]

/-- **C87.** `pbkdf2_sha256`: the same buffer, or the same panic. A buffer is never longer than `isize::MAX`. -/
theorem C87_pbkdf2 (T : Target) (fuel depth : Nat) (hd : 8 ≤ depth) (P S out : List U8) (c : Nat) (ho : out.length ≤ T.isizeMax) :
    call T p fuel depth .pbkdf2_pbkdf2_sha256 [bytes P, bytes S, .usize c, bytes out] =
      up (pbkdf2_sha256 T P S c out) >>= fun o => .ok (.unit, [bytes o]) := by
  obtain ⟨d, rfl⟩ := Nat.exists_eq_add_of_le' hd
  rw [C86_text.2 p hp]
  exact src_pbkdf2 T fuel (d + 1) P S out c ho

/-- A key of 40 bytes. -/
example (T : Target) (P S : List U8) := C87_pbkdf2 C86_text.1 T 0 8 (Nat.le_refl 8) P S (List.replicate 40 0) 1000
  (by rcases T with ⟨_ | _, _ | _⟩ <;> decide)

/-- **C87.** `salsa20`: the same output, or the same panic. -/
theorem C87_salsa20 (T : Target) (fuel depth : Nat) (hd : 8 ≤ depth) (input output : List U8) (rounds : Nat) :
    call T p fuel depth .salsa20_salsa20 [bytes input, .usize rounds, bytes output] =
      up (salsa20 input rounds output) >>= fun r => .ok (.unit, [bytes r]) := by
  obtain ⟨d, rfl⟩ := Nat.exists_eq_add_of_le' hd
  rw [C86_text.2 p hp]
  exact src_salsa20 T fuel (d + 3) input output rounds

/-- An input that is too short, and one that is not. -/
example (T : Target) (out : List U8) := And.intro (C87_salsa20 C86_text.1 T 0 8 (Nat.le_refl 8) [1, 2, 3] out 8)
  (C87_salsa20 C86_text.1 T 0 8 (Nat.le_refl 8) (List.replicate 64 1) out 8)

/-- **C87.** `Scrypt::new` and `derive`: the same answer and buffer, or the same panic. -/
theorem C87_scrypt (T : Target) (fuel depth : Nat) (hd : 8 ≤ depth) (r n k : Nat) (P S out : List U8) (ho : out.length ≤ T.isizeMax) :
    (call T p fuel depth .scrypt_Scrypt_new [.usize r, .usize n, .usize k] >>= fun (self, _) =>
        call T p fuel depth .scrypt_Scrypt_derive [self, bytes P, bytes S, bytes out]) =
      up ((Scrypt.new r n k).derive T P S out) >>= fun r => .ok (encResult r.2, [bytes r.1]) := by
  obtain ⟨d, rfl⟩ := Nat.exists_eq_add_of_le' hd
  rw [C86_text.2 p hp, src_Scrypt_new]
  exact src_derive T fuel d (Scrypt.new r n k) P S out ho

/-- A key of 40 bytes. -/
example (T : Target) (P S : List U8) := C87_scrypt C86_text.1 T 0 8 (Nat.le_refl 8) 8 16384 1 P S (List.replicate 40 0)
  (by rcases T with ⟨_ | _, _ | _⟩ <;> decide)

/-- **C87.** `AES`: every history of `init`, `encrypt` and `decrypt` has the same answers; neither panics. -/
theorem C87_aes (T : Target) (fuel depth : Nat) (hf : 65 ≤ fuel) (hd : 8 ≤ depth) (cs : List Verif.Props.Aes.Call) :
    ∃ a rs, Verif.Props.Aes.run T AES.new cs = .ok (a, rs) ∧
      sessionIn p T fuel depth (.aes_AES_new, []) (cs.map aesCall) = .ok (List.zipWith aesVal cs rs) := by
  obtain ⟨a, rs, h1, -, h2, h3⟩ := Verif.Props.Aes.run_spec T cs AES.new none rfl
  refine ⟨a, rs, h1, ?_⟩
  rw [C86_aes hp T fuel depth hf hd cs, aesAnswers_eq cs rs h2 h3]

/-- Two keys, one of them refused. -/
example (T : Target) (b : Vector U8 16) := C87_aes C86_text.1 T 65 8 (by decide) (by decide) [.init (List.replicate 32 1), .init [3], .encrypt b]

/-- **C87.** `Cipher`: every history of `init`, `write` and `flush` has the same answers; neither panics. -/
theorem C87_cipher (T : Target) (fuel depth : Nat) (hf : 65 ≤ fuel) (hd : 8 ≤ depth) (iv : Vector U8 16)
    (calls : List Spec.Cbc.Call) (hx : ∀ x ∈ calls, Reasonable T x) :
    ∃ c' rs, crun T (Cipher.new iv) calls = .ok (c', rs) ∧
      sessionIn p T fuel depth (.aes_cbc_Cipher_new, [bytes iv.toList]) (calls.map cipherCall) =
        .ok (List.zipWith cipherVal calls (rs.map (·.mapError errA))) := by
  obtain ⟨c', rs, h1, -, h3⟩ := crun_spec T calls (Cipher.new iv) ⟨none, iv.toList, []⟩ ⟨rfl, rfl, rfl, by simp⟩
  refine ⟨c', rs, h1, ?_⟩
  rw [C86_text.2 p hp, sessionIn_crate, C68_source_cipher T fuel depth hf hd iv calls hx, cipherAnswers, h3]

/-- **C87.** `Decipher`: likewise. -/
theorem C87_decipher (T : Target) (fuel depth : Nat) (hf : 65 ≤ fuel) (hd : 8 ≤ depth) (iv : Vector U8 16)
    (calls : List Spec.Cbc.Call) (hx : ∀ x ∈ calls, Reasonable T x) :
    ∃ c' rs, drun T (Decipher.new iv) calls = .ok (c', rs) ∧
      sessionIn p T fuel depth (.aes_cbc_Decipher_new, [bytes iv.toList]) (calls.map decipherCall) =
        .ok (List.zipWith decipherVal calls (rs.map (·.mapError errD))) := by
  obtain ⟨c', rs, h1, -, h3⟩ := drun_spec T calls (Decipher.new iv) ⟨none, iv.toList, [], []⟩
    ⟨rfl, rfl, rfl, by simp, rfl, Or.inl rfl⟩
  refine ⟨c', rs, h1, ?_⟩
  rw [C86_text.2 p hp, sessionIn_crate, C68_source_decipher T fuel depth hf hd iv calls hx, decipherAnswers, h3]

/-- A wrong key, a write before the key, a key, an unfinished block. -/
example (T : Target) (iv : Vector U8 16) :=
  have h : ∀ x ∈ [Spec.Cbc.Call.init [1, 2, 3], .write (List.replicate 20 7), .init (List.replicate 16 1), .write [1], .flush], Reasonable T x := by
    have : 36 ≤ T.isizeMax := by rcases T.bits_cases with h | h <;> simp [Target.isizeMax, h]
    intro x hx b hb
    subst hb
    simp at hx
    rcases hx with rfl | rfl <;> simp <;> omega
  And.intro (C87_cipher C86_text.1 T 65 8 (by decide) (by decide) iv _ h) (C87_decipher C86_text.1 T 65 8 (by decide) (by decide) iv _ h)

omit hp in
/-- A history on a `Decipher` that meets the hypotheses: a wrong key, a write before the key, a key, an unfinished block. -/
example (T : Target) : ∃ p, IsProgram Files.lib sources p ∧
    ∀ x ∈ [Spec.Cbc.Call.init [1, 2, 3], .write (List.replicate 20 7), .init (List.replicate 16 1), .write [1], .flush], Reasonable T x := by
  refine ⟨crate, C86_text.1, ?_⟩
  intro x hx b hb
  subst hb
  have : 36 ≤ T.isizeMax := by rcases T.bits_cases with h | h <;> simp [Target.isizeMax, h]
  simp at hx
  rcases hx with rfl | rfl <;> simp <;> omega

end Verif.Props.ModelText
