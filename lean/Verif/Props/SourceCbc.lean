import Verif.Source.Api
import Verif.Source.Refine.AesCbc
import Verif.Props.Aes
import Verif.Props.CbcHistory

/-!
Properties C67-C69: the text of `aes.rs`, `aes_cbc.rs` and `pkcs7.rs`, evaluated by `Source/Semantics.lean`, computes AES
and AES-CBC with PKCS#7 padding, over every history of calls.
-/

namespace Verif.Props.Source
open Verif Verif.Source

/-! ### AES -/

section
open Verif.Aes Verif.Props.Aes

/-- A call of a history as a call of the source. -/
def aesCall : Call → Fn × List Val
  | .init key => (.aes_AES_init, [bytes key])
  | .encrypt b => (.aes_AES_encrypt, [bytes b.toList])
  | .decrypt b => (.aes_AES_decrypt, [bytes b.toList])

/-- `Ok(v)` -/
def okVal (v : Val) : Val := .enum .Ok [v]
/-- `Err(v)` -/
def errVal (v : Val) : Val := .enum .Err [v]

/-- The answer to a call when `cur` is the key of the most recent successful `init`. -/
def aesAnswer (cur : Option (List U8)) : Call → Val
  | .init key =>
    if key.length = 16 ∨ key.length = 24 ∨ key.length = 32 then okVal .unit else errVal (.enum .AESError_InvalidKeySize [])
  | .encrypt b =>
    match cur with
    | none => errVal (.enum .AESError_NotInitialized [])
    | some key => okVal (bytes (Spec.Aes.encrypt key b.toList))
  | .decrypt b =>
    match cur with
    | none => errVal (.enum .AESError_NotInitialized [])
    | some key => okVal (bytes (Spec.Aes.decrypt key b.toList))

/-- The answers to a history. -/
def aesAnswers : Option (List U8) → List Call → List Val
  | _, [] => []
  | cur, c :: cs =>
    aesAnswer cur c ::
      aesAnswers (match c with
        | .init key => if key.length = 16 ∨ key.length = 24 ∨ key.length = 32 then some key else cur
        | _ => cur) cs

/-- The instance matches the last key, and its number of rounds is one of the standard or that of a new instance. -/
def AMatches (a : AES) (cur : Option (List U8)) : Prop := Matches a cur ∧ a.round_count ≤ 14

theorem holds_rounds {a : AES} {key : List U8} (h : Holds a key) : a.round_count ≤ 14 := by
  obtain ⟨hk, hr, _⟩ := h
  omega

theorem aes_history (T : Target) (fuel d : Nat) (cs : List Call) (a : AES) (cur : Option (List U8)) (h : AMatches a cur) :
    history T (fuel + 65) (d + 8) (encAES a) (cs.map aesCall) = .ok (aesAnswers cur cs) := by
  induction cs generalizing a cur with
  | nil => rfl
  | cons c cs ih =>
    obtain ⟨hm, hr⟩ := h
    rw [List.map_cons, history]
    cases c with
    | init key =>
      rw [aesCall, invoke, src_AES_init]
      by_cases hk : key.length = 16 ∨ key.length = 24 ∨ key.length = 32
      · obtain ⟨a', h1, h2⟩ := init_valid T a key hk
        rw [h1]
        have := ih a' (some key) ⟨h2, holds_rounds h2⟩
        simp only [aesAnswers, aesAnswer, if_pos hk]
        simp only [up_ok, R.ok_bind, this]
        rfl
      · rw [init_invalid T a key hk]
        have := ih a cur ⟨hm, hr⟩
        simp only [aesAnswers, aesAnswer, if_neg hk]
        simp only [up_ok, R.ok_bind, this]
        rfl
    | encrypt b =>
      rw [aesCall, invoke, src_AES_encrypt T fuel (d + 3) a b hr]
      have := ih a cur ⟨hm, hr⟩
      cases cur with
      | none =>
        have e : a.encrypt b = .ok (.error .NotInitialized) := by
          unfold AES.encrypt
          rw [show a.round_keys = none from hm]; rfl
        rw [e]
        simp only [aesAnswers, aesAnswer, up_ok, R.ok_bind, this]
        rfl
      | some key =>
        obtain ⟨o, h1, h2⟩ := Holds.encrypt hm b
        rw [h1]
        simp only [aesAnswers, aesAnswer, up_ok, R.ok_bind, this, ← h2]
        rfl
    | decrypt b =>
      rw [aesCall, invoke, src_AES_decrypt T fuel (d + 3) a b hr]
      have := ih a cur ⟨hm, hr⟩
      cases cur with
      | none =>
        have e : a.decrypt b = .ok (.error .NotInitialized) := by
          unfold AES.decrypt
          rw [show a.round_keys = none from hm]; rfl
        rw [e]
        simp only [aesAnswers, aesAnswer, up_ok, R.ok_bind, this]
        rfl
      | some key =>
        obtain ⟨o, h1, h2⟩ := Holds.decrypt hm b
        rw [h1]
        simp only [aesAnswers, aesAnswer, up_ok, R.ok_bind, this, ← h2]
        rfl

/-- **C67.** Every history of `init`, `encrypt` and `decrypt` calls on the source of `AES` answers as FIPS-197 says for the key
of the most recent successful `init`; nothing panics. -/
theorem C67_source_aes (T : Target) (fuel depth : Nat) (hf : 65 ≤ fuel) (hd : 8 ≤ depth) (cs : List Call) :
    session T fuel depth (.aes_AES_new, []) (cs.map aesCall) = .ok (aesAnswers none cs) := by
  obtain ⟨d, rfl⟩ := Nat.exists_eq_add_of_le' hd
  obtain ⟨f, rfl⟩ := Nat.exists_eq_add_of_le' hf
  rw [session, src_AES_new]
  exact aes_history T f d cs AES.new none ⟨rfl, by decide⟩

/-- **C67.** `AES::default()` gives the same instance. -/
theorem C67_source_default (T : Target) (fuel depth : Nat) (hd : 8 ≤ depth) :
    call T crate fuel depth .aes_AES_default [] = call T crate fuel depth .aes_AES_new [] := by
  obtain ⟨d, rfl⟩ := Nat.exists_eq_add_of_le' hd
  rw [src_AES_default, src_AES_new]
  rfl

example (T : Target) (fuel : Nat) := C67_source_default T fuel 8 (Nat.le_refl 8)

/-- A history: use before `init`, a bad key, a good key, a block there and back. -/
example (T : Target) (b : Vector U8 16) (key : List U8) (hk : key.length = 16) :
    session T 65 8 (.aes_AES_new, [])
        [(.aes_AES_encrypt, [bytes b.toList]), (.aes_AES_init, [bytes [1]]), (.aes_AES_init, [bytes key]),
          (.aes_AES_encrypt, [bytes b.toList]), (.aes_AES_decrypt, [bytes b.toList])] =
      .ok [errVal (.enum .AESError_NotInitialized []), errVal (.enum .AESError_InvalidKeySize []), okVal .unit,
        okVal (bytes (Spec.Aes.encrypt key b.toList)), okVal (bytes (Spec.Aes.decrypt key b.toList))] := by
  have := C67_source_aes T 65 8 (by decide) (by decide) [.encrypt b, .init [1], .init key, .encrypt b, .decrypt b]
  simpa [aesAnswers, aesAnswer, hk, aesCall] using this

end

/-! ### AES-CBC -/

section
open Verif.Aes Verif.Pkcs7 Verif.AesCbc Spec.Cbc
open Verif.Props.Aes (Holds init_valid init_invalid Matches)
open Verif.Props.CbcHistory (bind_ok decipher_flush_cases)

theorem encrypt_block_aes (c c' : Cipher) (b : List U8) (r) (h : c.encrypt_block b = .ok (c', r)) : c'.aes = c.aes := by
  unfold Cipher.encrypt_block at h
  obtain ⟨v, h1, h⟩ := bind_ok h
  obtain ⟨x, h2, h⟩ := bind_ok h
  cases x <;> (cases h; rfl)

theorem writeLoop_aes (bs : List (List U8)) (c c' : Cipher) (res : List U8) (r) (h : Cipher.writeLoop bs c res = .ok (c', r)) :
    c'.aes = c.aes := by
  induction bs generalizing c res with
  | nil => cases h; rfl
  | cons b bs ih =>
    unfold Cipher.writeLoop at h
    obtain ⟨⟨c1, x⟩, h1, h⟩ := bind_ok h
    have := encrypt_block_aes _ _ _ _ h1
    cases x with
    | error e => cases h; exact this
    | ok o => rw [ih _ _ h, this]

theorem cipher_write_aes (T : Target) (c c' : Cipher) (b : List U8) (r) (h : c.write T b = .ok (c', r)) : c'.aes = c.aes := by
  unfold Cipher.write at h
  obtain ⟨⟨p, o⟩, h1, h⟩ := bind_ok h
  cases o with
  | none => cases h; rfl
  | some bs =>
    obtain ⟨cs, h2, h⟩ := bind_ok h
    exact writeLoop_aes cs { c with pad := p } c' [] r h

theorem cipher_flush_aes (T : Target) (c c' : Cipher) (r) (h : c.flush T = .ok (c', r)) : c'.aes = c.aes := by
  unfold Cipher.flush at h
  obtain ⟨⟨p, o⟩, h1, h⟩ := bind_ok h
  exact encrypt_block_aes { c with pad := p } c' o r h

theorem dec_writeLoop_aes (bs : List (List U8)) (c c' : Decipher) (res : List U8) (r)
    (h : Decipher.writeLoop bs c res = .ok (c', r)) : c'.aes = c.aes := by
  induction bs generalizing c res with
  | nil => cases h; rfl
  | cons b bs ih =>
    unfold Decipher.writeLoop at h
    obtain ⟨v, h1, h⟩ := bind_ok h
    obtain ⟨x, h2, h⟩ := bind_ok h
    cases x with
    | error e => cases h; rfl
    | ok o => rw [ih _ _ h]

theorem decipher_write_aes (T : Target) (c c' : Decipher) (b : List U8) (r) (h : c.write T b = .ok (c', r)) : c'.aes = c.aes := by
  unfold Decipher.write at h
  obtain ⟨⟨p, o⟩, h1, h⟩ := bind_ok h
  cases o with
  | none => cases h; rfl
  | some bs =>
    obtain ⟨cs, h2, h⟩ := bind_ok h
    obtain ⟨⟨c1, x⟩, h3, h⟩ := bind_ok h
    have := dec_writeLoop_aes _ _ _ _ _ h3
    cases x with
    | error e => cases h; exact this
    | ok o =>
      obtain ⟨y, h4, h⟩ := bind_ok h
      cases h
      exact this

/-- A call of a history as a call of the source of `Cipher`. -/
def cipherCall : Spec.Cbc.Call → Fn × List Val
  | .init key => (.aes_cbc_Cipher_init, [bytes key])
  | .write b => (.aes_cbc_Cipher_write, [bytes b])
  | .flush => (.aes_cbc_Cipher_flush, [])

/-- A call of a history as a call of the source of `Decipher`. -/
def decipherCall : Spec.Cbc.Call → Fn × List Val
  | .init key => (.aes_cbc_Decipher_init, [bytes key])
  | .write b => (.aes_cbc_Decipher_write, [bytes b])
  | .flush => (.aes_cbc_Decipher_flush, [])

/-- The error values of the crate: `AESError`, and `UnpadError`. -/
def errorVal : Spec.Cbc.Err → Val
  | .invalidKeySize => .enum .AESError_InvalidKeySize []
  | .notInitialized => .enum .AESError_NotInitialized []
  | .unfinishedBlock => .enum .UnpadError_UnfinishedBlock []
  | .invalidPadding => .enum .UnpadError_InvalidPadding []

/-- The result of a call on a `Cipher`: `init` returns `Result<(), AESError>`, the others `Result<Vec<u8>, AESError>`. -/
def cipherVal (c : Spec.Cbc.Call) (r : Except Spec.Cbc.Err (List Spec.Byte)) : Val :=
  match c, r with
  | .init _, .ok _ => okVal .unit
  | _, .ok o => okVal (bytes o)
  | _, .error e => errVal (errorVal e)

/-- The result of a call on a `Decipher`: `init` returns `Result<(), AESError>`, the others `Result<Vec<u8>, DecipherError>`. -/
def decipherVal (c : Spec.Cbc.Call) (r : Except Spec.Cbc.Err (List Spec.Byte)) : Val :=
  match c, r with
  | .init _, .ok _ => okVal .unit
  | .init _, .error e => errVal (errorVal e)
  | .write _, .ok o => okVal (bytes o)
  | .write _, .error e => errVal (.enum .DecipherError_AES [errorVal e])
  | .flush, .ok o => okVal (bytes o)
  | .flush, .error e => errVal (.enum .DecipherError_PKCS7 [errorVal e])

/-- The results of a history. -/
def cipherAnswers (calls : List Spec.Cbc.Call) (e : Enc) : List Val := List.zipWith cipherVal calls (e.run calls).2
def decipherAnswers (calls : List Spec.Cbc.Call) (e : Dec) : List Val := List.zipWith decipherVal calls (e.run calls).2

/-- No single write is within a block of the largest size of an allocation, `isize::MAX`. -/
def Reasonable (T : Target) (c : Spec.Cbc.Call) : Prop :=
  ∀ b, c = .write b → b.length + 16 ≤ T.isizeMax

theorem cipher_invoke (T : Target) (fuel d : Nat) (c : Cipher) (e : Enc) (h : CMatches c e) (hr : c.aes.round_count ≤ 14)
    (x : Spec.Cbc.Call) (hx : Reasonable T x) :
    ∃ c', invoke T (fuel + 65) (d + 8) (encCipher c) (cipherCall x) = .ok (encCipher c', cipherVal x (e.step x).2) ∧
      CMatches c' (e.step x).1 ∧ c'.aes.round_count ≤ 14 := by
  obtain ⟨c', r, h1, h2, h3⟩ := cstep_spec T c e h x
  cases x with
  | init key =>
    rw [cstep] at h1
    obtain ⟨⟨c1, r1⟩, h4, h5⟩ := bind_ok h1
    cases h5
    refine ⟨c', ?_, h2, ?_⟩
    · rw [cipherCall, invoke, src_Cipher_init, h4, ← h3]
      cases r1 with
      | ok u => rfl
      | error e => cases e <;> rfl
    · by_cases hk : validKey key
      · have := h2.1
        rw [Enc.step, if_pos hk] at this
        exact holds_rounds this
      · rw [Cipher.init, init_invalid T c.aes key hk] at h4
        cases h4
        exact hr
  | write b =>
    rw [cstep] at h1
    refine ⟨c', ?_, h2, by rw [cipher_write_aes T _ _ _ _ h1]; exact hr⟩
    have hp : c.pad.storage.length + b.length ≤ T.isizeMax := by
      rw [h.2.2.1]
      have := h.2.2.2
      have := hx b rfl
      show e.pending.length + _ ≤ _
      omega
    rw [cipherCall, invoke, src_Cipher_write T fuel (d + 1) c b hr hp, h1, ← h3]
    cases r with
    | ok u => rfl
    | error e => cases e <;> rfl
  | flush =>
    rw [cstep] at h1
    refine ⟨c', ?_, h2, by rw [cipher_flush_aes T _ _ _ h1]; exact hr⟩
    rw [cipherCall, invoke, src_Cipher_flush T fuel (d + 1) c hr (by rw [h.2.2.1]; show 16 ≤ 64; decide), h1, ← h3]
    cases r with
    | ok u => rfl
    | error e => cases e <;> rfl

theorem decipher_invoke (T : Target) (fuel d : Nat) (c : Decipher) (e : Dec) (h : DMatches c e)
    (hr : c.aes.round_count ≤ 14) (x : Spec.Cbc.Call) (hx : Reasonable T x) :
    ∃ c', invoke T (fuel + 65) (d + 8) (encDecipher c) (decipherCall x) = .ok (encDecipher c', decipherVal x (e.step x).2) ∧
      DMatches c' (e.step x).1 ∧ c'.aes.round_count ≤ 14 := by
  obtain ⟨c', r, h1, h2, h3⟩ := dstep_spec T c e h x
  cases x with
  | init key =>
    rw [dstep] at h1
    obtain ⟨⟨c1, r1⟩, h4, h5⟩ := bind_ok h1
    cases h5
    refine ⟨c', ?_, h2, ?_⟩
    · rw [decipherCall, invoke, src_Decipher_init, h4, ← h3]
      cases r1 with
      | ok u => rfl
      | error e => cases e <;> rfl
    · by_cases hk : validKey key
      · have := h2.1
        rw [Dec.step, if_pos hk] at this
        exact holds_rounds this
      · rw [Decipher.init, init_invalid T c.aes key hk] at h4
        cases h4
        exact hr
  | write b =>
    rw [dstep] at h1
    refine ⟨c', ?_, h2, by rw [decipher_write_aes T _ _ _ _ h1]; exact hr⟩
    have hp : c.buffer.storage.length + b.length ≤ T.isizeMax := by
      rw [h.2.2.1]
      have := h.2.2.2.1
      have := hx b rfl
      show e.pending.length + _ ≤ _
      omega
    rw [decipherCall, invoke, src_Decipher_write T fuel (d + 2) c b hr hp, h1, ← h3]
    cases r with
    | ok u => rfl
    | error x =>
      cases x with
      | AES e => cases e <;> rfl
      | PKCS7 u =>
        exfalso
        simp only [Dec.step] at h3
        split at h3
        · cases h3
        · split at h3 <;> cases u <;> cases h3
  | flush =>
    rw [dstep] at h1
    have hc : c'.aes = c.aes := by
      rcases decipher_flush_cases T c c' r h1 with ⟨rfl, _⟩ | ⟨rfl, _⟩ <;> rfl
    refine ⟨c', ?_, h2, by rw [hc]; exact hr⟩
    rw [decipherCall, invoke, src_Decipher_flush, h1, ← h3]
    cases r with
    | ok u => rfl
    | error x =>
      cases x with
      | PKCS7 u => cases u <;> rfl
      | AES u =>
        exfalso
        simp only [Dec.step] at h3
        split at h3
        · cases u <;> cases h3
        · split at h3 <;> cases u <;> cases h3

theorem cipher_history (T : Target) (fuel d : Nat) (calls : List Spec.Cbc.Call) (hx : ∀ x ∈ calls, Reasonable T x) (c : Cipher)
    (e : Enc) (h : CMatches c e) (hr : c.aes.round_count ≤ 14) :
    history T (fuel + 65) (d + 8) (encCipher c) (calls.map cipherCall) = .ok (cipherAnswers calls e) := by
  induction calls generalizing c e with
  | nil => rfl
  | cons x xs ih =>
    obtain ⟨c', h1, h2, h3⟩ := cipher_invoke T fuel d c e h hr x (hx x (by simp))
    have := ih (fun y hy => hx y (by simp [hy])) c' _ h2 h3
    rw [List.map_cons, history, h1]
    simp only [R.ok_bind, this]
    rfl

theorem decipher_history (T : Target) (fuel d : Nat) (calls : List Spec.Cbc.Call) (hx : ∀ x ∈ calls, Reasonable T x)
    (c : Decipher) (e : Dec) (h : DMatches c e) (hr : c.aes.round_count ≤ 14) :
    history T (fuel + 65) (d + 8) (encDecipher c) (calls.map decipherCall) = .ok (decipherAnswers calls e) := by
  induction calls generalizing c e with
  | nil => rfl
  | cons x xs ih =>
    obtain ⟨c', h1, h2, h3⟩ := decipher_invoke T fuel d c e h hr x (hx x (by simp))
    have := ih (fun y hy => hx y (by simp [hy])) c' _ h2 h3
    rw [List.map_cons, history, h1]
    simp only [R.ok_bind, this]
    rfl

/-- **C68.** Every history of `init`, `write` and `flush` calls on the source of `Cipher` answers as the abstract encryptor
does; nothing panics. -/
theorem C68_source_cipher (T : Target) (fuel depth : Nat) (hf : 65 ≤ fuel) (hd : 8 ≤ depth) (iv : Vector U8 16)
    (calls : List Spec.Cbc.Call) (hx : ∀ x ∈ calls, Reasonable T x) :
    session T fuel depth (.aes_cbc_Cipher_new, [bytes iv.toList]) (calls.map cipherCall) =
      .ok (cipherAnswers calls ⟨none, iv.toList, []⟩) := by
  obtain ⟨d, rfl⟩ := Nat.exists_eq_add_of_le' hd
  obtain ⟨f, rfl⟩ := Nat.exists_eq_add_of_le' hf
  rw [session, src_Cipher_new]
  exact cipher_history T f d calls hx (Cipher.new iv) _ ⟨rfl, rfl, rfl, by simp⟩ (by show 0 ≤ 14; decide)

/-- **C68.** Every history of `init`, `write` and `flush` calls on the source of `Decipher` answers as the abstract decryptor
does; nothing panics. -/
theorem C68_source_decipher (T : Target) (fuel depth : Nat) (hf : 65 ≤ fuel) (hd : 8 ≤ depth) (iv : Vector U8 16)
    (calls : List Spec.Cbc.Call) (hx : ∀ x ∈ calls, Reasonable T x) :
    session T fuel depth (.aes_cbc_Decipher_new, [bytes iv.toList]) (calls.map decipherCall) =
      .ok (decipherAnswers calls ⟨none, iv.toList, [], []⟩) := by
  obtain ⟨d, rfl⟩ := Nat.exists_eq_add_of_le' hd
  obtain ⟨f, rfl⟩ := Nat.exists_eq_add_of_le' hf
  rw [session, src_Decipher_new]
  exact decipher_history T f d calls hx (Decipher.new iv) _ ⟨rfl, rfl, rfl, by simp, rfl, Or.inl rfl⟩ (by show 0 ≤ 14; decide)

/-- A wrong key, a write before the key, a key, an unfinished block. -/
example (T : Target) (iv : Vector U8 16) := C68_source_decipher T 65 8 (by decide) (by decide) iv
  [.init [1, 2, 3], .write (List.replicate 20 7), .init (List.replicate 16 1), .write [1], .flush] (by
    have : 36 ≤ T.isizeMax := by rcases T.bits_cases with h | h <;> simp [Target.isizeMax, h]
    intro x hx b hb
    subst hb
    simp at hx
    rcases hx with rfl | rfl <;> simp <;> omega)

theorem enc_answers (T : Target) (iv : Vector U8 16) (key : List U8) (chunks rs : List (List U8)) (last : List U8) (c : Cipher)
    (h : crun T (Cipher.new iv) (.init key :: (chunks.map .write ++ [.flush])) = .ok (c, .ok [] :: (rs.map .ok ++ [.ok last])))
    (hl : rs.length = chunks.length) :
    cipherAnswers (.init key :: (chunks.map .write ++ [.flush])) ⟨none, iv.toList, []⟩ =
      okVal .unit :: (rs.map (fun o => okVal (bytes o)) ++ [okVal (bytes last)]) := by
  obtain ⟨c', rs', h1, h2⟩ := CbcHistory.C43_cipher T iv (.init key :: (chunks.map .write ++ [.flush]))
  rw [h] at h1
  cases h1
  rw [cipherAnswers, ← h2]
  simp only [List.map_cons, List.map_append, List.map_map, List.map_nil, List.zipWith_cons_cons]
  rw [List.zipWith_append (by simpa using hl.symm)]
  congr 1
  congr 1
  clear h h2
  induction chunks generalizing rs with
  | nil =>
    cases rs with
    | nil => rfl
    | cons => cases hl
  | cons x xs ih =>
    cases rs with
    | nil => cases hl
    | cons r rs =>
      simp only [List.map_cons, List.zipWith_cons_cons]
      rw [ih rs (by simpa using hl)]
      rfl

theorem dec_answers (T : Target) (iv : Vector U8 16) (key : List U8) (chunks rs : List (List U8)) (last : List U8) (c : Decipher)
    (h : drun T (Decipher.new iv) (.init key :: (chunks.map .write ++ [.flush])) = .ok (c, .ok [] :: (rs.map .ok ++ [.ok last])))
    (hl : rs.length = chunks.length) :
    decipherAnswers (.init key :: (chunks.map .write ++ [.flush])) ⟨none, iv.toList, [], []⟩ =
      okVal .unit :: (rs.map (fun o => okVal (bytes o)) ++ [okVal (bytes last)]) := by
  obtain ⟨c', rs', h1, h2⟩ := CbcHistory.C43_decipher T iv (.init key :: (chunks.map .write ++ [.flush]))
  rw [h] at h1
  cases h1
  rw [decipherAnswers, ← h2]
  simp only [List.map_cons, List.map_append, List.map_map, List.map_nil, List.zipWith_cons_cons]
  rw [List.zipWith_append (by simpa using hl.symm)]
  congr 1
  congr 1
  clear h h2
  induction chunks generalizing rs with
  | nil =>
    cases rs with
    | nil => rfl
    | cons => cases hl
  | cons x xs ih =>
    cases rs with
    | nil => cases hl
    | cons r rs =>
      simp only [List.map_cons, List.zipWith_cons_cons]
      rw [ih rs (by simpa using hl)]
      rfl

/-- The calls that encrypt or decrypt one message given in parts. -/
def messageCalls (key : List U8) (chunks : List (List U8)) : List Spec.Cbc.Call := .init key :: (chunks.map .write ++ [.flush])

theorem message_reasonable (T : Target) (key : List U8) (chunks : List (List U8))
    (h : ∀ b ∈ chunks, b.length + 16 ≤ T.isizeMax) : ∀ x ∈ messageCalls key chunks, Reasonable T x := by
  intro x hx b hb
  subst hb
  simp [messageCalls] at hx
  exact h b hx

/-- **C69.** The source of `Cipher`: the outputs of the writes and of `flush` together are the CBC encryption of the padded
message. -/
theorem C69_source_encrypt (T : Target) (fuel depth : Nat) (hf : 65 ≤ fuel) (hd : 8 ≤ depth) (iv : Vector U8 16)
    (key : List U8) (hk : key.length = 16 ∨ key.length = 24 ∨ key.length = 32) (chunks : List (List U8))
    (hx : ∀ b ∈ chunks, b.length + 16 ≤ T.isizeMax) :
    ∃ (rs : List (List U8)) (last : List U8),
      session T fuel depth (.aes_cbc_Cipher_new, [bytes iv.toList]) ((messageCalls key chunks).map cipherCall) =
        .ok (okVal .unit :: (rs.map (fun o => okVal (bytes o)) ++ [okVal (bytes last)])) ∧
      rs.flatten ++ last = encrypt key iv.toList (pkcs7 16 chunks.flatten) := by
  obtain ⟨c, rs, last, h1, h2, _, _, h3⟩ := Cbc.cipher_session T iv key hk chunks
  refine ⟨rs, last, ?_, h3⟩
  rw [C68_source_cipher T fuel depth hf hd iv _ (message_reasonable T key chunks hx)]
  exact congrArg Except.ok (enc_answers T iv key chunks rs last c h1 h2)

/-- **C69.** The source of `Decipher` gives the message back, whatever way the ciphertext is cut. -/
theorem C69_source_round_trip (T : Target) (fuel depth : Nat) (hf : 65 ≤ fuel) (hd : 8 ≤ depth) (iv : Vector U8 16)
    (key : List U8) (hk : key.length = 16 ∨ key.length = 24 ∨ key.length = 32) (m : List U8) (chunks : List (List U8))
    (hx : ∀ b ∈ chunks, b.length + 16 ≤ T.isizeMax)
    (hc : chunks.flatten = encrypt key iv.toList (pkcs7 16 m)) :
    ∃ (rs : List (List U8)) (last : List U8),
      session T fuel depth (.aes_cbc_Decipher_new, [bytes iv.toList]) ((messageCalls key chunks).map decipherCall) =
        .ok (okVal .unit :: (rs.map (fun o => okVal (bytes o)) ++ [okVal (bytes last)])) ∧
      rs.flatten ++ last = m := by
  obtain ⟨d, rs, r, h4, h5, h6, h7⟩ := Cbc.decipher_session T iv key hk chunks
  obtain ⟨v, _, hv1, hv2, hv3⟩ := Cbc.pkcs7_trailer m
  have hd' : decrypt key iv.toList chunks.flatten = pkcs7 16 m := by
    rw [hc, decrypt_encrypt _ _ _ (by simp)]
    rw [pkcs7_length]; omega
  rw [hd'] at h7
  rcases h7 _ rfl with ⟨a, b⟩ | ⟨w, a, b, last, c, e⟩ | ⟨w, a, b, c⟩
  · rw [a] at hv1; cases hv1
  · rw [hv1] at a
    injection a with a
    subst a
    refine ⟨rs, last, ?_, e.trans hv3⟩
    rw [C68_source_decipher T fuel depth hf hd iv _ (message_reasonable T key chunks hx)]
    exact congrArg Except.ok (dec_answers T iv key chunks rs last d (by rw [← c]; exact h4) h5)
  · rw [hv1] at a
    injection a with a
    subst a
    exact absurd hv2 b

/-- The hypotheses hold: a key of 24 bytes and a message in three parts. -/
example (T : Target) (iv : Vector U8 16) : ∃ (rs : List (List U8)) (last : List U8),
    session T 65 8 (.aes_cbc_Cipher_new, [bytes iv.toList])
        ((messageCalls (List.replicate 24 7) [[1, 2], [], List.replicate 40 3]).map cipherCall) =
      .ok (okVal .unit :: (rs.map (fun o => okVal (bytes o)) ++ [okVal (bytes last)])) ∧
    rs.flatten ++ last = encrypt (List.replicate 24 7) iv.toList (pkcs7 16 ([1, 2] ++ List.replicate 40 3)) :=
  C69_source_encrypt T 65 8 (by decide) (by decide) iv _ (by simp) [[1, 2], [], List.replicate 40 3] (by
    have hi : 2 ^ 31 - 1 ≤ T.isizeMax := by rcases T.bits_cases with h | h <;> simp [Target.isizeMax, h]
    intro b hb
    simp only [List.mem_cons, List.not_mem_nil, or_false] at hb
    rcases hb with rfl | rfl | rfl <;> simp <;> omega)

/-- The hypotheses hold: the ciphertext of a message, cut after its first five bytes. -/
example (T : Target) (iv : Vector U8 16) (m : List U8) (hm : m.length = 20) : ∃ (rs : List (List U8)) (last : List U8),
    session T 65 8 (.aes_cbc_Decipher_new, [bytes iv.toList])
        ((messageCalls (List.replicate 16 7) [(encrypt (List.replicate 16 7) iv.toList (pkcs7 16 m)).take 5,
          (encrypt (List.replicate 16 7) iv.toList (pkcs7 16 m)).drop 5]).map decipherCall) =
      .ok (okVal .unit :: (rs.map (fun o => okVal (bytes o)) ++ [okVal (bytes last)])) ∧
    rs.flatten ++ last = m := by
  have hl : (encrypt (List.replicate 16 7) iv.toList (pkcs7 16 m)).length ≤ 32 := by
    rw [encrypt_length, pkcs7_length, hm]
    decide
  refine C69_source_round_trip T 65 8 (by decide) (by decide) iv _ (by simp) m _ ?_ (by simp)
  have hi : 2 ^ 31 - 1 ≤ T.isizeMax := by rcases T.bits_cases with h | h <;> simp [Target.isizeMax, h]
  intro b hb
  simp only [List.mem_cons, List.not_mem_nil, or_false] at hb
  rcases hb with rfl | rfl
  · rw [List.length_take]; omega
  · rw [List.length_drop]; omega

end
end Verif.Props.Source
