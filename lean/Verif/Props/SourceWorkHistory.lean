import Verif.Props.SourceWorkCbc
import Verif.Spec.CbcWork

/-!
Property C96, continued: the blocks on which AES is run in any history of calls on a `Cipher` or a `Decipher`.
-/

namespace Verif.Props.SourceWork
open Verif Verif.Source Verif.Text Verif.Aes Verif.AesCbc Verif.Props.FromText Verif.Props.Source Spec.Cbc

/-- AES on one block, forwards. -/
local notation "encryptBlock" => Fn.aes_AES_encrypt
/-- AES on one block, backwards. -/
local notation "decryptBlock" => Fn.aes_AES_decrypt
/-- The key schedule. -/
local notation "schedule" => Fn.aes_AES_init

theorem cipher_call (T : Target) (F d : Nat) (c : Cipher) (e : Enc) (hm : CMatches c e) (hr : c.aes.round_count ≤ 14)
    (x : Spec.Cbc.Call) (hx : Reasonable T x) :
    ∃ c' v, invokeIn crate T (F + 65) (d + 8) (encCipher c) (cipherCall x) = .ok (encCipher c', v) ∧
      CMatches c' (e.step x).1 ∧ c'.aes.round_count ≤ 14 ∧
      calls encryptBlock (callT T crate (F + 65) (d + 8) (cipherCall x).1 (encCipher c :: (cipherCall x).2)).1 = answerBlocks (e.step x).2 := by
  obtain ⟨c1, i1, i2, i3⟩ := cipher_invoke T F d c e hm hr x hx
  refine ⟨c1, _, i1, i2, i3, ?_⟩
  obtain ⟨c', r, h1, h2, h3⟩ := cstep_spec T c e hm x
  have hl := hm.2.2.2
  have hp := hm.2.2.1
  cases x with
  | init key =>
    refine (no_enc T _ _ _ rfl _).trans ?_
    rw [Enc.step]
    split <;> rfl
  | flush =>
    have := calls_Cipher_flush T F (d + 1) c hr (by rw [hp]; show 16 ≤ 64; decide) _ h1
    refine this.trans ?_
    rw [Enc.step]
    split
    · rfl
    · show 1 = (encrypt _ _ _).length / 16
      rw [encrypt_length, pkcs7_length]
      omega
  | write b =>
    have hb : b.length + 16 ≤ T.isizeMax := hx b rfl
    have hw : c.write T b = .ok (c', r) := h1
    have hs : c.pad.storage = e.pending := by rw [hp]
    by_cases hlt : (e.pending ++ b).length < 16
    · have h4 : (e.step (.write b)).2 = .ok [] := by rw [Enc.step, if_pos hlt]
      rw [h4] at h3
      rcases r with x | o
      · cases h3
      have := calls_Cipher_write T F (d + 1) c b hr (by rw [hp]) (by rw [hs]; omega) c' o hw
      refine this.trans ?_
      rw [h4, hs]
      rw [List.length_append] at hlt
      show _ = ([] : List U8).length / 16
      rw [List.length_nil]
      omega
    · cases hk : e.key with
      | none =>
        have := calls_Cipher_write_none T F (d + 1) c b hr (by rw [hp]) (by rw [hs]; omega)
          (by have := hm.1; rw [hk] at this; exact this) (by rw [hs, ← List.length_append]; omega) _ hw
        refine this.trans ?_
        rw [Enc.step, if_neg hlt, hk]
        rfl
      | some key =>
        have h4 : (e.step (.write b)).2 = .ok (encrypt key e.iv (e.pending ++ b)) := by rw [Enc.step, if_neg hlt, hk]
        rw [h4] at h3
        rcases r with x | o
        · cases h3
        have := calls_Cipher_write T F (d + 1) c b hr (by rw [hp]) (by rw [hs]; omega) c' o hw
        refine this.trans ?_
        rw [h4, hs]
        show _ = (encrypt _ _ _).length / 16
        rw [encrypt_length, List.length_append]
        omega

theorem decipher_call (T : Target) (F d : Nat) (c : Decipher) (e : Dec) (hm : DMatches c e) (hr : c.aes.round_count ≤ 14)
    (x : Spec.Cbc.Call) (hx : Reasonable T x) :
    ∃ c' v, invokeIn crate T (F + 65) (d + 8) (encDecipher c) (decipherCall x) = .ok (encDecipher c', v) ∧
      DMatches c' (e.step x).1 ∧ c'.aes.round_count ≤ 14 ∧
      calls decryptBlock (callT T crate (F + 65) (d + 8) (decipherCall x).1 (encDecipher c :: (decipherCall x).2)).1 = e.callBlocks x := by
  obtain ⟨c1, i1, i2, i3⟩ := decipher_invoke T F d c e hm hr x hx
  refine ⟨c1, _, i1, i2, i3, ?_⟩
  obtain ⟨c', r, h1, h2, h3⟩ := dstep_spec T c e hm x
  have hl := hm.2.2.2.1
  have hp := hm.2.2.1
  cases x with
  | init key => exact no_dec T _ _ _ rfl _
  | flush => exact no_dec T _ _ _ rfl _
  | write b =>
    have hb : b.length + 16 ≤ T.isizeMax := hx b rfl
    have hw : c.write T b = .ok (c', r) := h1
    have hs : c.buffer.storage = e.pending := by rw [hp]
    by_cases hlt : (e.pending ++ b).length < 16
    · have h4 : (e.step (.write b)).2 = .ok [] := by rw [Dec.step, if_pos hlt]
      rw [h4] at h3
      rcases r with x | o
      · cases h3
      have := calls_Decipher_write T F (d + 2) c b hr (by rw [hp]) (by rw [hs]; omega) c' o hw
      refine this.trans ?_
      rw [hs, Dec.callBlocks]
      rw [List.length_append] at hlt
      split
      · rfl
      · omega
    · cases hk : e.key with
      | none =>
        have := calls_Decipher_write_none T F (d + 2) c b hr (by rw [hp]) (by rw [hs]; omega)
          (by have := hm.1; rw [hk] at this; exact this) (by rw [hs, ← List.length_append]; omega) _ hw
        refine this.trans ?_
        rw [Dec.callBlocks, hk]
        rw [List.length_append] at hlt
        show 1 = min 1 _
        omega
      | some key =>
        have h4 : ∃ o, (e.step (.write b)).2 = .ok o := by rw [Dec.step, if_neg hlt, hk]; exact ⟨_, rfl⟩
        obtain ⟨o', h4⟩ := h4
        rw [h4] at h3
        rcases r with x | o
        · cases h3
        have := calls_Decipher_write T F (d + 2) c b hr (by rw [hp]) (by rw [hs]; omega) c' o hw
        refine this.trans ?_
        rw [Dec.callBlocks, hk, hs]
        rfl

theorem cipher_calls (T : Target) (F d : Nat) (cs : List Spec.Cbc.Call) (hx : ∀ x ∈ cs, Reasonable T x) (c : Cipher) (e : Enc)
    (hm : CMatches c e) (hr : c.aes.round_count ≤ 14) :
    calls encryptBlock (seenHistory crate T (F + 65) (d + 8) (encCipher c) (cs.map cipherCall)) = ((e.run cs).2.map answerBlocks).sum ∧
    calls schedule (seenHistory crate T (F + 65) (d + 8) (encCipher c) (cs.map cipherCall)) = cs.countP isInit := by
  induction cs generalizing c e with
  | nil => exact ⟨rfl, rfl⟩
  | cons x xs ih =>
    obtain ⟨c', v, h1, h2, h3, h4⟩ := cipher_call T F d c e hm hr x (hx x (by simp))
    have := ih (fun y hy => hx y (by simp [hy])) c' _ h2 h3
    simp only [List.map_cons, seenHistory, calls_append, h1]
    refine ⟨congr (congrArg HAdd.hAdd h4) this.1, ?_⟩
    rw [this.2, List.countP_cons, Nat.add_comm]
    congr 1
    cases x with
    | init key => exact calls_Cipher_init T F (d + 4) c key
    | write b => exact callT_avoids noInit_closed T (F + 65) (d + 8) .aes_cbc_Cipher_write rfl _
    | flush => exact callT_avoids noInit_closed T (F + 65) (d + 8) .aes_cbc_Cipher_flush rfl _

theorem decipher_calls (T : Target) (F d : Nat) (cs : List Spec.Cbc.Call) (hx : ∀ x ∈ cs, Reasonable T x) (c : Decipher) (e : Dec)
    (hm : DMatches c e) (hr : c.aes.round_count ≤ 14) :
    calls decryptBlock (seenHistory crate T (F + 65) (d + 8) (encDecipher c) (cs.map decipherCall)) = e.blocks cs ∧
    calls schedule (seenHistory crate T (F + 65) (d + 8) (encDecipher c) (cs.map decipherCall)) = cs.countP isInit := by
  induction cs generalizing c e with
  | nil => exact ⟨rfl, rfl⟩
  | cons x xs ih =>
    obtain ⟨c', v, h1, h2, h3, h4⟩ := decipher_call T F d c e hm hr x (hx x (by simp))
    have := ih (fun y hy => hx y (by simp [hy])) c' _ h2 h3
    simp only [List.map_cons, seenHistory, calls_append, h1]
    refine ⟨congr (congrArg HAdd.hAdd h4) this.1, ?_⟩
    rw [this.2, List.countP_cons, Nat.add_comm]
    congr 1
    cases x with
    | init key => exact calls_Decipher_init T F (d + 4) c key
    | write b => exact callT_avoids noInit_closed T (F + 65) (d + 8) .aes_cbc_Decipher_write rfl _
    | flush => exact callT_avoids noInit_closed T (F + 65) (d + 8) .aes_cbc_Decipher_flush rfl _

variable {p : Program} (hp : IsProgram Files.lib sources p)
include hp

/-- **C96.** In any history of calls on a `Cipher`, AES is run on one block for each block of ciphertext that is returned, and once for each
call that finds that there is no key, never backwards; and the key schedule is computed once for each call of `init`. -/
theorem C96_cipher (T : Target) (fuel depth : Nat) (hf : 65 ≤ fuel) (hd : 8 ≤ depth) (iv : Vector U8 16) (cs : List Spec.Cbc.Call)
    (hx : ∀ x ∈ cs, Reasonable T x) :
    calls encryptBlock (seenSession p T fuel depth (.aes_cbc_Cipher_new, [bytes iv.toList]) (cs.map cipherCall)) =
        ((Enc.run ⟨none, iv.toList, []⟩ cs).2.map answerBlocks).sum ∧
    calls decryptBlock (seenSession p T fuel depth (.aes_cbc_Cipher_new, [bytes iv.toList]) (cs.map cipherCall)) = 0 ∧
    calls schedule (seenSession p T fuel depth (.aes_cbc_Cipher_new, [bytes iv.toList]) (cs.map cipherCall)) = cs.countP isInit := by
  rw [C86_text.2 p hp]
  obtain ⟨d, rfl⟩ := Nat.exists_eq_add_of_le' hd
  obtain ⟨F, rfl⟩ := Nat.exists_eq_add_of_le' hf
  have hnew := src_Cipher_new T (F + 65) (d + 6) iv
  have hm : CMatches (Cipher.new iv) ⟨none, iv.toList, []⟩ := ⟨rfl, rfl, rfl, (by decide : 0 < 16)⟩
  simp only [seenSession, calls_append, hnew]
  have hc := cipher_calls T F d cs hx _ _ hm (by show 0 ≤ 14; decide)
  refine ⟨?_, ?_, ?_⟩
  · rw [no_enc T (F + 65) (d + 8) .aes_cbc_Cipher_new rfl, Nat.zero_add]
    exact hc.1
  · rw [no_dec T (F + 65) (d + 8) .aes_cbc_Cipher_new rfl, Nat.zero_add]
    refine closed_history noDec_closed T (F + 65) (d + 8) _ _ ?_
    intro c hc
    obtain ⟨x, hx, rfl⟩ := List.mem_map.mp hc
    cases x <;> rfl
  · rw [callT_avoids noInit_closed T (F + 65) (d + 8) .aes_cbc_Cipher_new rfl, Nat.zero_add]
    exact hc.2

/-- **C96.** In any history of calls on a `Decipher`, AES is run, backwards only, on one block for each complete block of ciphertext that is
written, but only on the first of a `write` when there is no key; and the key schedule is computed once for each call of `init`. -/
theorem C96_decipher (T : Target) (fuel depth : Nat) (hf : 65 ≤ fuel) (hd : 8 ≤ depth) (iv : Vector U8 16) (cs : List Spec.Cbc.Call)
    (hx : ∀ x ∈ cs, Reasonable T x) :
    calls decryptBlock (seenSession p T fuel depth (.aes_cbc_Decipher_new, [bytes iv.toList]) (cs.map decipherCall)) =
        Dec.blocks ⟨none, iv.toList, [], []⟩ cs ∧
    calls encryptBlock (seenSession p T fuel depth (.aes_cbc_Decipher_new, [bytes iv.toList]) (cs.map decipherCall)) = 0 ∧
    calls schedule (seenSession p T fuel depth (.aes_cbc_Decipher_new, [bytes iv.toList]) (cs.map decipherCall)) = cs.countP isInit := by
  rw [C86_text.2 p hp]
  obtain ⟨d, rfl⟩ := Nat.exists_eq_add_of_le' hd
  obtain ⟨F, rfl⟩ := Nat.exists_eq_add_of_le' hf
  have hnew := src_Decipher_new T (F + 65) (d + 6) iv
  have hm : DMatches (Decipher.new iv) ⟨none, iv.toList, [], []⟩ := ⟨rfl, rfl, rfl, (by decide : 0 < 16), rfl, .inl rfl⟩
  simp only [seenSession, calls_append, hnew]
  have hc := decipher_calls T F d cs hx _ _ hm (by show 0 ≤ 14; decide)
  refine ⟨?_, ?_, ?_⟩
  · rw [no_dec T (F + 65) (d + 8) .aes_cbc_Decipher_new rfl, Nat.zero_add]
    exact hc.1
  · rw [no_enc T (F + 65) (d + 8) .aes_cbc_Decipher_new rfl, Nat.zero_add]
    refine closed_history noEnc_closed T (F + 65) (d + 8) _ _ ?_
    intro c hc
    obtain ⟨x, hx, rfl⟩ := List.mem_map.mp hc
    cases x <;> rfl
  · rw [callT_avoids noInit_closed T (F + 65) (d + 8) .aes_cbc_Decipher_new rfl, Nat.zero_add]
    exact hc.2

/-- A history with an error and two keys on one `Decipher`: 1 + 2 + 1 blocks. -/
example (T : Target) (iv : Vector U8 16) (k1 : Vector U8 16) (k2 : Vector U8 32) (a b c : List U8) (ha : a.length = 40) (hb : b.length = 24)
    (hc : c.length = 20) :
    calls decryptBlock (seenSession p T 65 8 (.aes_cbc_Decipher_new, [bytes iv.toList])
      ([.write a, .init k1.toList, .write b, .init k2.toList, .write c].map decipherCall)) = 4 := by
  have h2 : 100 ≤ T.isizeMax := by
    unfold Target.isizeMax
    rcases T.bits_cases with h | h <;> rw [h] <;> decide
  rw [(C96_decipher hp T 65 8 (by decide) (by decide) iv _ (by
    intro x hx y hy
    simp only [List.mem_cons, List.not_mem_nil, or_false] at hx
    subst hy
    rcases hx with h | h | h | h | h <;> cases h <;> omega)).1]
  simp [Dec.blocks, Dec.callBlocks, Dec.step, validKey, tail, ha, hb, hc]

/-- The same on a `Cipher`, with the padding of the second message at the end: 1 + 2 + 1 + 1 blocks, and three key schedules, one of which
fails. -/
example (T : Target) (iv : Vector U8 16) (k1 : Vector U8 16) (k2 : Vector U8 32) (a b c : List U8) (ha : a.length = 40) (hb : b.length = 24)
    (hc : c.length = 20) :
    calls encryptBlock (seenSession p T 65 8 (.aes_cbc_Cipher_new, [bytes iv.toList])
      ([.write a, .init k1.toList, .write b, .init [], .init k2.toList, .write c, .flush].map cipherCall)) = 5 ∧
    calls schedule (seenSession p T 65 8 (.aes_cbc_Cipher_new, [bytes iv.toList])
      ([.write a, .init k1.toList, .write b, .init [], .init k2.toList, .write c, .flush].map cipherCall)) = 3 := by
  have h2 : 100 ≤ T.isizeMax := by
    unfold Target.isizeMax
    rcases T.bits_cases with h | h <;> rw [h] <;> decide
  have h := C96_cipher hp T 65 8 (by decide) (by decide) iv
    [.write a, .init k1.toList, .write b, .init [], .init k2.toList, .write c, .flush] (by
    intro x hx y hy
    simp only [List.mem_cons, List.not_mem_nil, or_false] at hx
    subst hy
    rcases hx with h | h | h | h | h | h | h <;> cases h <;> omega)
  refine ⟨h.1.trans ?_, h.2.2⟩
  simp [Enc.run, Enc.step, answerBlocks, validKey, tail, encrypt_length, pkcs7_length, ha, hb, hc]

end Verif.Props.SourceWork
