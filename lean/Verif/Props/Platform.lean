import Verif.Proof.Mono
import Verif.Props.Sha256
import Verif.Props.Hmac
import Verif.Props.Pbkdf2
import Verif.Props.Aes
import Verif.Props.CbcHistory

/-! Properties C59 and C60: what depends on the platform (32 or 64 bits) and on the build profile (debug or release). -/

namespace Verif.Props.Platform
open Verif Verif.Sha256 Verif.Hmac Verif.Pbkdf2 Verif.Scrypt Verif.Aes Verif.AesCbc

section
variable (T T' : Target) (hc : T.checks = true) (hb : T.bits ≤ T'.bits)
include hc hb

/-- **C59.** If a history of `update` and `digest` calls on a new `SHA256` does not panic in a debug build, then every
build (debug or release) for the same or a wider `usize` returns the same digests. -/
theorem C59_sha256 (ops : List Sha256.Op) (ds : List (List U8)) (h : Sha256.run T ops SHA256.new = .ok ds) :
    Sha256.run T' ops SHA256.new = .ok ds := by
  suffices ∀ s, Le (Sha256.run T ops s) (Sha256.run T' ops s) from this _ _ h
  have hs : T.Sub T' := ⟨hc, hb⟩
  clear h
  induction ops with
  | nil => exact fun _ => Le.refl _
  | cons op ops ih =>
    intro s
    cases op with
    | update data => exact (hs.sha_update s data).bind' fun _ => ih _
    | digest => exact (hs.sha_digest s).bind' fun _ => (ih _).bind' fun _ => Le.refl _

/-- **C59.** The same for a keyed `HMac`. -/
theorem C59_hmac (key : List U8) (ops : List Hmac.Op) (ds : List (List U8))
    (h : (do let m ← HMac.new T key; Hmac.run T ops m) = .ok ds) :
    (do let m ← HMac.new T' key; Hmac.run T' ops m) = .ok ds := by
  have hs : T.Sub T' := ⟨hc, hb⟩
  have run : ∀ m, Le (Hmac.run T ops m) (Hmac.run T' ops m) := by
    clear h
    induction ops with
    | nil => exact fun _ => Le.refl _
    | cons op ops ih =>
      intro s
      cases op with
      | update data => exact (hs.hmac_update s data).bind' fun _ => ih _
      | digest => exact (hs.hmac_digest s).bind' fun _ => (ih _).bind' fun _ => Le.refl _
  exact (hs.hmac_new key).bind' run _ h

/-- HMAC with a digest in the middle, computed by a 32-bit debug build and by a 64-bit release build. -/
example (ds : List (List U8)) (h : (do let m ← HMac.new ⟨.w32, true⟩ [1]; Hmac.run ⟨.w32, true⟩ [.update [2], .digest, .digest] m) = .ok ds) :=
  C59_hmac ⟨.w32, true⟩ ⟨.w64, false⟩ rfl (by decide) [1] [.update [2], .digest, .digest] ds h

example : ∃ ds, (do let m ← HMac.new ⟨.w32, true⟩ [1]; Hmac.run ⟨.w32, true⟩ [.update [2], .digest, .digest] m) = .ok ds :=
  ⟨_, Hmac.C45_history _ _ _ (.inr (by decide))⟩

/-- **C59.** The same for PBKDF2: the bytes written to the buffer are the same. -/
theorem C59_pbkdf2 (password salt : List U8) (c : Nat) (out out' : List U8)
    (h : pbkdf2_sha256 T password salt c out = .ok out') : pbkdf2_sha256 T' password salt c out = .ok out' :=
  Target.Sub.pbkdf2 ⟨hc, hb⟩ password salt c out _ h

/-- The same for a key of 40 bytes. -/
example (out' : List U8) (h : pbkdf2_sha256 ⟨.w32, true⟩ [1] [2] 1000 (List.replicate 40 0) = .ok out') :=
  C59_pbkdf2 ⟨.w32, true⟩ ⟨.w64, false⟩ rfl (by decide) [1] [2] 1000 (List.replicate 40 0) out' h

example : ∃ out', pbkdf2_sha256 ⟨.w32, true⟩ [1] [2] 1000 (List.replicate 40 0) = .ok out' :=
  ⟨_, Pbkdf2.C08_pbkdf2_correct _ _ _ _ _ (by decide) (by decide) (by decide) (by decide) (by decide)⟩

/-- **C59.** The same for scrypt with any parameters: same bytes in the buffer, same `Result`. -/
theorem C59_scrypt (r n p : Nat) (passphrase salt out out' : List U8) (res : Except ScryptError Unit)
    (h : (Scrypt.new r n p).derive T passphrase salt out = .ok (out', res)) :
    (Scrypt.new r n p).derive T' passphrase salt out = .ok (out', res) :=
  Target.Sub.derive ⟨hc, hb⟩ _ passphrase salt out _ h

end

/-- A history that does not panic in a 32-bit debug build, moved to a 64-bit release build. -/
example (ds : List (List U8))
    (h : Sha256.run ⟨.w32, true⟩ [.update [1, 2], .digest, .update [3], .digest] SHA256.new = .ok ds) :
    Sha256.run ⟨.w64, false⟩ [.update [1, 2], .digest, .update [3], .digest] SHA256.new = .ok ds :=
  C59_sha256 _ _ rfl (by decide) _ _ h

/-- and it does return. -/
example : ∃ ds, Sha256.run ⟨.w32, true⟩ [.update [1, 2], .digest, .update [3], .digest] SHA256.new = .ok ds :=
  ⟨_, Sha256.C04_history _ _ (.inr (by decide))⟩

/-- A derivation that a 32-bit debug build rejects is rejected everywhere. -/
example : (Scrypt.new 8 6 1).derive ⟨.w64, false⟩ [1] [2] [0, 0] = .ok ([0, 0], .error .NIsNotAPowerOfTwo) :=
  C59_scrypt ⟨.w32, true⟩ _ rfl (by decide) 8 6 1 [1] [2] [0, 0] _ _ rfl

/-- The wider target matters: a message of `2 ^ 29` bytes or more that a 64-bit build hashes makes the 32-bit debug build
panic, so the converse of C59 does not hold. -/
theorem C59_converse_fails (n : Nat) (h : 2 ^ 29 ≤ n) (h' : n < 2 ^ 61) :
    (∃ ds, Sha256.run ⟨.w64, true⟩ [.update (List.replicate n 0), .digest] SHA256.new = .ok ds) ∧
    ¬ ∃ ds, Sha256.run ⟨.w32, true⟩ [.update (List.replicate n 0), .digest] SHA256.new = .ok ds := by
  refine ⟨⟨_, Sha256.C04_history _ _ (.inr ?_)⟩, ?_⟩
  · simp only [Sha256.fed, List.length_replicate]
    show 8 * (n + 0) < 2 ^ 64
    omega
  · rintro ⟨ds, hds⟩
    have := (Sha256.C03_length_limit_w32 [List.replicate n 0]).mpr
      (by simp only [List.flatten_cons, List.flatten_nil, List.append_nil, List.length_replicate]; exact h)
    obtain ⟨p, hp⟩ := this
    unfold Sha256.run Sha256.run Sha256.run at hds
    unfold Sha256.hashChunks at hp
    simp only [List.foldlM_cons, List.foldlM_nil] at hp
    cases hu : SHA256.new.update ⟨.w32, true⟩ (List.replicate n 0) with
    | error e => rw [hu] at hds; cases hds
    | ok s =>
      rw [hu] at hp hds
      cases hd : s.digest ⟨.w32, true⟩ with
      | error e =>
        simp only [ok_bind, hd] at hds
        cases hds
      | ok q =>
        simp only [ok_bind, pure_eq_ok, hd] at hp
        cases hp

/-- The shortest such message. -/
example := C59_converse_fails (2 ^ 29) (by decide) (by decide)

/-- Two targets have a common debug target below them. -/
theorem below (T : Target) : Target.Sub ⟨.w32, true⟩ T := ⟨rfl, T.bits_ge⟩

/-- **C60.** Every history of calls on an `AES` instance returns the same results on every platform and in every build. -/
theorem C60_aes (T T' : Target) (calls : List Aes.Call) : Aes.run T AES.new calls = Aes.run T' AES.new calls := by
  have run : ∀ (T : Target) a, Le (Aes.run ⟨.w32, true⟩ a calls) (Aes.run T a calls) := by
    intro T
    induction calls with
    | nil => exact fun _ => Le.refl _
    | cons op ops ih =>
      intro s
      cases op with
      | init key => exact ((below T).aes_init s key).bind' fun _ => (ih _).bind' fun _ => Le.refl _
      | encrypt b => exact (Le.refl _).bind' fun _ => (ih _).bind' fun _ => Le.refl _
      | decrypt b => exact (Le.refl _).bind' fun _ => (ih _).bind' fun _ => Le.refl _
  obtain ⟨q, hq⟩ : ∃ q, Aes.run ⟨.w32, true⟩ AES.new calls = .ok q := by
    obtain ⟨a, rs, e, _⟩ := Aes.C26_history ⟨.w32, true⟩ calls
    exact ⟨_, e⟩
  rw [run T _ q hq, run T' _ q hq]

/-- **C60.** Every history of calls on a `Cipher` leaves the same state and returns the same bytes and errors on every
platform and in every build. -/
theorem C60_cipher (T T' : Target) (iv : Vector U8 16) (calls : List Spec.Cbc.Call) :
    crun T (Cipher.new iv) calls = crun T' (Cipher.new iv) calls := by
  have step : ∀ (T : Target) c x, Le (cstep ⟨.w32, true⟩ c x) (cstep T c x) := by
    intro T c x
    cases x with
    | init key => exact ((below T).cipher_init c key).bind' fun _ => Le.refl _
    | write b => exact (below T).cipher_write c b
    | flush => exact (below T).cipher_flush c
  have run : ∀ (T : Target) c, Le (crun ⟨.w32, true⟩ c calls) (crun T c calls) := by
    intro T
    induction calls with
    | nil => exact fun _ => Le.refl _
    | cons x xs ih => exact fun c => (step T c x).bind' fun _ => (ih _).bind' fun _ => Le.refl _
  obtain ⟨c', rs, hq, _⟩ := CbcHistory.C43_cipher ⟨.w32, true⟩ iv calls
  rw [run T _ _ hq, run T' _ _ hq]

/-- **C60.** The same for a `Decipher`. -/
theorem C60_decipher (T T' : Target) (iv : Vector U8 16) (calls : List Spec.Cbc.Call) :
    drun T (Decipher.new iv) calls = drun T' (Decipher.new iv) calls := by
  have step : ∀ (T : Target) c x, Le (dstep ⟨.w32, true⟩ c x) (dstep T c x) := by
    intro T c x
    cases x with
    | init key => exact ((below T).decipher_init c key).bind' fun _ => Le.refl _
    | write b => exact (below T).decipher_write c b
    | flush => exact (below T).decipher_flush c
  have run : ∀ (T : Target) c, Le (drun ⟨.w32, true⟩ c calls) (drun T c calls) := by
    intro T
    induction calls with
    | nil => exact fun _ => Le.refl _
    | cons x xs ih => exact fun c => (step T c x).bind' fun _ => (ih _).bind' fun _ => Le.refl _
  obtain ⟨c', rs, hq, _⟩ := CbcHistory.C43_decipher ⟨.w32, true⟩ iv calls
  rw [run T _ _ hq, run T' _ _ hq]

/-- A history with errors in it: a write before `init`, a key of the wrong size, then a message. -/
example (T T' : Target) (iv : Vector U8 16) (key m : List U8) :
    crun T (Cipher.new iv) [.write m, .init [1, 2, 3], .init key, .write m, .flush] =
      crun T' (Cipher.new iv) [.write m, .init [1, 2, 3], .init key, .write m, .flush] :=
  C60_cipher T T' iv _

end Verif.Props.Platform
