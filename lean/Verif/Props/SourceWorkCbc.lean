import Verif.Source.CostCbc
import Verif.Props.SourceWork

/-!
Property C96, continued: how often the program in the text runs AES to encrypt and decrypt messages.
-/

namespace Verif.Props.SourceWork
open Verif Verif.Source Verif.Text Verif.Aes Verif.AesCbc Verif.Props.FromText Verif.Props.Source Spec.Cbc

/-- AES on one block, forwards. -/
local notation "encryptBlock" => Fn.aes_AES_encrypt
/-- AES on one block, backwards. -/
local notation "decryptBlock" => Fn.aes_AES_decrypt
/-- The key schedule. -/
local notation "schedule" => Fn.aes_AES_init

theorem invokeIn_crate (T : Target) (F d : Nat) (v : Val) (c : Fn × List Val) : invokeIn crate T F d v c = invoke T F d v c := rfl

/-- Calls of functions from which `g` is not reached. -/
theorem closed_history {S : Fn → Bool} {g : Fn} (hS : crate.closed S g) (T : Target) (F d : Nat) (obj : Val) (cs : List (Fn × List Val))
    (h : ∀ c ∈ cs, S c.1 = true) : calls g (seenHistory crate T F d obj cs) = 0 := by
  induction cs generalizing obj with
  | nil => rfl
  | cons c cs ih =>
    rw [seenHistory, calls_append, callT_avoids hS T F d c.1 (h c (by simp))]
    split
    · rw [ih _ fun c hc => h c (by simp [hc])]
    · rfl

theorem cipher_step (T : Target) (F d : Nat) (key : List U8) (c : Cipher) (e : Enc) (hm : CMatches c e) (hk : e.key = some key)
    (hr : c.aes.round_count ≤ 14) (b : List U8) (hb : b.length + 16 ≤ T.isizeMax) :
    ∃ c' e' v, invokeIn crate T (F + 65) (d + 8) (encCipher c) (cipherCall (.write b)) = .ok (encCipher c', v) ∧
      CMatches c' e' ∧ e'.key = some key ∧ c'.aes.round_count ≤ 14 ∧ e'.pending.length = (e.pending.length + b.length) % 16 ∧
      calls encryptBlock (callT T crate (F + 65) (d + 8) .aes_cbc_Cipher_write [encCipher c, bytes b]).1 =
        (e.pending.length + b.length) / 16 := by
  obtain ⟨c1, i1, i2, i3⟩ := cipher_invoke T F d c e hm hr (.write b) (fun b' h => by cases h; exact hb)
  obtain ⟨c', r, h1, h2, h3⟩ := cstep_spec T c e hm (.write b)
  have hl := hm.2.2.2
  have hp := hm.2.2.1
  have hok : ∃ o, r = .ok o := by
    rcases r with x | o
    · have : (e.step (.write b)).2 = .error (errA x) := h3.symm
      rw [Enc.step, hk] at this
      split at this <;> cases this
    · exact ⟨o, rfl⟩
  obtain ⟨o, rfl⟩ := hok
  refine ⟨c1, (e.step (.write b)).1, _, i1, i2, ?_, i3, ?_, ?_⟩
  · rw [Enc.step, hk]
    split <;> rfl
  · rw [Enc.step, hk]
    split
    · rename_i hlt
      rw [List.length_append] at hlt
      show (e.pending ++ b).length = _
      rw [List.length_append, Nat.mod_eq_of_lt hlt]
    · show (tail (e.pending ++ b)).length = _
      rw [tail, List.length_drop, List.length_append]
      omega
  · have := calls_Cipher_write T F (d + 1) c b hr (by rw [hp]) (by rw [hp]; show e.pending.length + _ ≤ _; omega) c' o h1
    rw [hp] at this
    exact this

theorem cipher_history (T : Target) (F d : Nat) (key : List U8) (chunks : List (List U8)) (hx : ∀ b ∈ chunks, b.length + 16 ≤ T.isizeMax)
    (c : Cipher) (e : Enc) (hm : CMatches c e) (hk : e.key = some key) (hr : c.aes.round_count ≤ 14) :
    calls encryptBlock (seenHistory crate T (F + 65) (d + 8) (encCipher c) ((chunks.map Spec.Cbc.Call.write ++ [Spec.Cbc.Call.flush]).map cipherCall)) =
      (e.pending.length + chunks.flatten.length) / 16 + 1 := by
  induction chunks generalizing c e with
  | nil =>
    obtain ⟨c', r, h1, h2, h3⟩ := cstep_spec T c e hm .flush
    have := calls_Cipher_flush T F (d + 1) c hr (by rw [hm.2.2.1]; show 16 ≤ 64; decide) _ h1
    have hl := hm.2.2.2
    simp only [List.map_nil, List.nil_append, List.map_cons, seenHistory, calls_append]
    refine (congrArg (· + _) this).trans ?_
    rw [List.flatten_nil, List.length_nil, Nat.div_eq_of_lt (by omega)]
    split <;> rfl
  | cons b bs ih =>
    obtain ⟨c', e', v, h1, h2, h3, h4, h5, h6⟩ := cipher_step T F d key c e hm hk hr b (hx b (by simp))
    simp only [List.map_cons, List.cons_append, seenHistory, calls_append]
    rw [h1]
    refine (congrArg (· + _) h6).trans ?_
    refine (congrArg (_ + ·) (ih (fun b hb => hx b (by simp [hb])) c' e' h2 h3 h4)).trans ?_
    rw [h5, List.flatten_cons, List.length_append]
    omega

theorem decipher_step (T : Target) (F d : Nat) (key : List U8) (c : Decipher) (e : Dec) (hm : DMatches c e) (hk : e.key = some key)
    (hr : c.aes.round_count ≤ 14) (b : List U8) (hb : b.length + 16 ≤ T.isizeMax) :
    ∃ c' e' v, invokeIn crate T (F + 65) (d + 8) (encDecipher c) (decipherCall (.write b)) = .ok (encDecipher c', v) ∧
      DMatches c' e' ∧ e'.key = some key ∧ c'.aes.round_count ≤ 14 ∧ e'.pending.length = (e.pending.length + b.length) % 16 ∧
      calls decryptBlock (callT T crate (F + 65) (d + 8) .aes_cbc_Decipher_write [encDecipher c, bytes b]).1 =
        (e.pending.length + b.length) / 16 := by
  obtain ⟨c1, i1, i2, i3⟩ := decipher_invoke T F d c e hm hr (.write b) (fun b' h => by cases h; exact hb)
  obtain ⟨c', r, h1, h2, h3⟩ := dstep_spec T c e hm (.write b)
  have hl := hm.2.2.2.1
  have hp := hm.2.2.1
  have hok : ∃ o, r = .ok o := by
    rcases r with x | o
    · have : (e.step (.write b)).2 = .error (errD x) := h3.symm
      rw [Dec.step, hk] at this
      split at this <;> cases this
    · exact ⟨o, rfl⟩
  obtain ⟨o, rfl⟩ := hok
  refine ⟨c1, (e.step (.write b)).1, _, i1, i2, ?_, i3, ?_, ?_⟩
  · rw [Dec.step, hk]
    split <;> rfl
  · rw [Dec.step, hk]
    split
    · rename_i hlt
      rw [List.length_append] at hlt
      show (e.pending ++ b).length = _
      rw [List.length_append, Nat.mod_eq_of_lt hlt]
    · show (tail (e.pending ++ b)).length = _
      rw [tail, List.length_drop, List.length_append]
      omega
  · have := calls_Decipher_write T F (d + 2) c b hr (by rw [hp]) (by rw [hp]; show e.pending.length + _ ≤ _; omega) c' o h1
    rw [hp] at this
    exact this

theorem decipher_history (T : Target) (F d : Nat) (key : List U8) (chunks : List (List U8)) (hx : ∀ b ∈ chunks, b.length + 16 ≤ T.isizeMax)
    (c : Decipher) (e : Dec) (hm : DMatches c e) (hk : e.key = some key) (hr : c.aes.round_count ≤ 14) :
    calls decryptBlock (seenHistory crate T (F + 65) (d + 8) (encDecipher c) ((chunks.map Spec.Cbc.Call.write ++ [Spec.Cbc.Call.flush]).map decipherCall)) =
      (e.pending.length + chunks.flatten.length) / 16 := by
  induction chunks generalizing c e with
  | nil =>
    have hl := hm.2.2.2.1
    rw [closed_history noDec_closed]
    · rw [List.flatten_nil, List.length_nil, Nat.add_zero, Nat.div_eq_of_lt hl]
    · intro c hc
      simp only [List.map_nil, List.nil_append, List.map_cons, List.mem_singleton] at hc
      rw [hc]
      rfl
  | cons b bs ih =>
    obtain ⟨c', e', v, h1, h2, h3, h4, h5, h6⟩ := decipher_step T F d key c e hm hk hr b (hx b (by simp))
    simp only [List.map_cons, List.cons_append, seenHistory, calls_append]
    rw [h1]
    refine (congrArg (· + _) h6).trans ?_
    refine (congrArg (_ + ·) (ih (fun b hb => hx b (by simp [hb])) c' e' h2 h3 h4)).trans ?_
    rw [h5, List.flatten_cons, List.length_append]
    omega

variable {p : Program} (hp : IsProgram Files.lib sources p)
include hp

/-- **C96.** Encrypting a message of `m` bytes, however it is cut into `write` calls, runs AES on exactly `m / 16 + 1` blocks, one for
each block of the ciphertext, and computes the key schedule once. -/
theorem C96_encrypt (T : Target) (fuel depth : Nat) (hf : 65 ≤ fuel) (hd : 8 ≤ depth) (iv : Vector U8 16)
    (key : List U8) (hk : key.length = 16 ∨ key.length = 24 ∨ key.length = 32) (chunks : List (List U8))
    (hx : ∀ b ∈ chunks, b.length + 16 ≤ T.isizeMax) :
    calls encryptBlock (seenSession p T fuel depth (.aes_cbc_Cipher_new, [bytes iv.toList]) ((messageCalls key chunks).map cipherCall)) =
        chunks.flatten.length / 16 + 1 ∧
    calls decryptBlock (seenSession p T fuel depth (.aes_cbc_Cipher_new, [bytes iv.toList]) ((messageCalls key chunks).map cipherCall)) = 0 ∧
    calls schedule (seenSession p T fuel depth (.aes_cbc_Cipher_new, [bytes iv.toList]) ((messageCalls key chunks).map cipherCall)) = 1 := by
  rw [C86_text.2 p hp]
  obtain ⟨d, rfl⟩ := Nat.exists_eq_add_of_le' hd
  obtain ⟨F, rfl⟩ := Nat.exists_eq_add_of_le' hf
  have hnew := src_Cipher_new T (F + 65) (d + 6) iv
  have hm : CMatches (Cipher.new iv) ⟨none, iv.toList, []⟩ := ⟨rfl, rfl, rfl, (by decide : 0 < 16)⟩
  obtain ⟨c1, i1, i2, i3⟩ := cipher_invoke T F d _ _ hm (by show 0 ≤ 14; decide) (.init key) (fun b h => by cases h)
  have hstep : (Enc.step ⟨none, iv.toList, []⟩ (.init key)).1 = ⟨some key, iv.toList, []⟩ := by
    rw [Enc.step, if_pos (show validKey key from hk)]
  rw [hstep] at i2
  simp only [seenSession, calls_append, hnew, messageCalls, List.map_cons, seenHistory, invokeIn_crate, i1]
  refine ⟨?_, ?_, ?_⟩
  · have h0 := no_enc T (F + 65) (d + 8) .aes_cbc_Cipher_new rfl [bytes iv.toList]
    have h1 := no_enc T (F + 65) (d + 8) .aes_cbc_Cipher_init rfl [encCipher (Cipher.new iv), bytes key]
    have h2 := cipher_history T F d key chunks hx c1 _ i2 rfl i3
    refine (congr (congrArg HAdd.hAdd h0) (congr (congrArg HAdd.hAdd h1) h2)).trans ?_
    show 0 + (0 + ((0 + chunks.flatten.length) / 16 + 1)) = _
    omega
  · have h0 := no_dec T (F + 65) (d + 8) .aes_cbc_Cipher_new rfl [bytes iv.toList]
    have h1 := no_dec T (F + 65) (d + 8) .aes_cbc_Cipher_init rfl [encCipher (Cipher.new iv), bytes key]
    have h2 := closed_history noDec_closed T (F + 65) (d + 8) (encCipher c1)
      ((chunks.map Spec.Cbc.Call.write ++ [Spec.Cbc.Call.flush]).map cipherCall) (by
        intro c hc
        obtain ⟨x, hx, rfl⟩ := List.mem_map.mp hc
        cases x <;> rfl)
    exact congr (congrArg HAdd.hAdd h0) (congr (congrArg HAdd.hAdd h1) h2)
  · have h0 := callT_avoids noInit_closed T (F + 65) (d + 8) .aes_cbc_Cipher_new rfl [bytes iv.toList]
    have h1 := calls_Cipher_init T F (d + 4) (Cipher.new iv) key
    have h2 := closed_history noInit_closed T (F + 65) (d + 8) (encCipher c1)
      ((chunks.map Spec.Cbc.Call.write ++ [Spec.Cbc.Call.flush]).map cipherCall) (by
        intro c hc
        obtain ⟨x, hx, rfl⟩ := List.mem_map.mp hc
        rcases List.mem_append.mp hx with hx | hx
        · obtain ⟨b, _, rfl⟩ := List.mem_map.mp hx
          rfl
        · cases List.mem_singleton.mp hx
          rfl)
    exact congr (congrArg HAdd.hAdd h0) (congr (congrArg HAdd.hAdd h1) h2)

/-- **C96.** Decrypting a ciphertext of `m` bytes, however it is cut into `write` calls, and whether or not its padding is accepted, runs
AES on exactly `m / 16` blocks, one for each block of the ciphertext, and computes the key schedule once. -/
theorem C96_decrypt (T : Target) (fuel depth : Nat) (hf : 65 ≤ fuel) (hd : 8 ≤ depth) (iv : Vector U8 16)
    (key : List U8) (hk : key.length = 16 ∨ key.length = 24 ∨ key.length = 32) (chunks : List (List U8))
    (hx : ∀ b ∈ chunks, b.length + 16 ≤ T.isizeMax) :
    calls decryptBlock (seenSession p T fuel depth (.aes_cbc_Decipher_new, [bytes iv.toList]) ((messageCalls key chunks).map decipherCall)) =
        chunks.flatten.length / 16 ∧
    calls encryptBlock (seenSession p T fuel depth (.aes_cbc_Decipher_new, [bytes iv.toList]) ((messageCalls key chunks).map decipherCall)) = 0 ∧
    calls schedule (seenSession p T fuel depth (.aes_cbc_Decipher_new, [bytes iv.toList]) ((messageCalls key chunks).map decipherCall)) = 1 := by
  rw [C86_text.2 p hp]
  obtain ⟨d, rfl⟩ := Nat.exists_eq_add_of_le' hd
  obtain ⟨F, rfl⟩ := Nat.exists_eq_add_of_le' hf
  have hnew := src_Decipher_new T (F + 65) (d + 6) iv
  have hm : DMatches (Decipher.new iv) ⟨none, iv.toList, [], []⟩ := ⟨rfl, rfl, rfl, (by decide : 0 < 16), rfl, .inl rfl⟩
  obtain ⟨c1, i1, i2, i3⟩ := decipher_invoke T F d _ _ hm (by show 0 ≤ 14; decide) (.init key) (fun b h => by cases h)
  have hstep : (Dec.step ⟨none, iv.toList, [], []⟩ (.init key)).1 = ⟨some key, iv.toList, [], []⟩ := by
    rw [Dec.step, if_pos (show validKey key from hk)]
  rw [hstep] at i2
  simp only [seenSession, calls_append, hnew, messageCalls, List.map_cons, seenHistory, invokeIn_crate, i1]
  refine ⟨?_, ?_, ?_⟩
  · have h0 := no_dec T (F + 65) (d + 8) .aes_cbc_Decipher_new rfl [bytes iv.toList]
    have h1 := no_dec T (F + 65) (d + 8) .aes_cbc_Decipher_init rfl [encDecipher (Decipher.new iv), bytes key]
    have h2 := decipher_history T F d key chunks hx c1 _ i2 rfl i3
    refine (congr (congrArg HAdd.hAdd h0) (congr (congrArg HAdd.hAdd h1) h2)).trans ?_
    show 0 + (0 + ((0 + chunks.flatten.length) / 16)) = _
    omega
  · have h0 := no_enc T (F + 65) (d + 8) .aes_cbc_Decipher_new rfl [bytes iv.toList]
    have h1 := no_enc T (F + 65) (d + 8) .aes_cbc_Decipher_init rfl [encDecipher (Decipher.new iv), bytes key]
    have h2 := closed_history noEnc_closed T (F + 65) (d + 8) (encDecipher c1)
      ((chunks.map Spec.Cbc.Call.write ++ [Spec.Cbc.Call.flush]).map decipherCall) (by
        intro c hc
        obtain ⟨x, hx, rfl⟩ := List.mem_map.mp hc
        cases x <;> rfl)
    exact congr (congrArg HAdd.hAdd h0) (congr (congrArg HAdd.hAdd h1) h2)
  · have h0 := callT_avoids noInit_closed T (F + 65) (d + 8) .aes_cbc_Decipher_new rfl [bytes iv.toList]
    have h1 := calls_Decipher_init T F (d + 4) (Decipher.new iv) key
    have h2 := closed_history noInit_closed T (F + 65) (d + 8) (encDecipher c1)
      ((chunks.map Spec.Cbc.Call.write ++ [Spec.Cbc.Call.flush]).map decipherCall) (by
        intro c hc
        obtain ⟨x, hx, rfl⟩ := List.mem_map.mp hc
        rcases List.mem_append.mp hx with hx | hx
        · obtain ⟨b, _, rfl⟩ := List.mem_map.mp hx
          rfl
        · cases List.mem_singleton.mp hx
          rfl)
    exact congr (congrArg HAdd.hAdd h0) (congr (congrArg HAdd.hAdd h1) h2)

/-- A message of 40 bytes in two pieces: three blocks. -/
example (T : Target) (iv : Vector U8 16) (key : Vector U8 32) (a b : List U8) (ha : a.length = 7) (hb : b.length = 33) :
    calls encryptBlock (seenSession p T 65 8 (.aes_cbc_Cipher_new, [bytes iv.toList]) ((messageCalls key.toList [a, b]).map cipherCall)) =
      3 := by
  have h2 : 49 ≤ T.isizeMax := by
    unfold Target.isizeMax
    rcases T.bits_cases with h | h <;> rw [h] <;> decide
  rw [(C96_encrypt hp T 65 8 (by decide) (by decide) iv key.toList (by simp) [a, b] (by
    intro x hx
    simp only [List.mem_cons, List.not_mem_nil, or_false] at hx
    rcases hx with rfl | rfl <;> omega)).1]
  simp [ha, hb]

/-- A ciphertext of three blocks. -/
example (T : Target) (iv : Vector U8 16) (key : Vector U8 32) (a b : List U8) (ha : a.length = 7) (hb : b.length = 41) :
    calls decryptBlock (seenSession p T 65 8 (.aes_cbc_Decipher_new, [bytes iv.toList]) ((messageCalls key.toList [a, b]).map decipherCall)) =
      3 := by
  have h2 : 100 ≤ T.isizeMax := by
    unfold Target.isizeMax
    rcases T.bits_cases with h | h <;> rw [h] <;> decide
  rw [(C96_decrypt hp T 65 8 (by decide) (by decide) iv key.toList (by simp) [a, b] (by
    intro x hx
    simp only [List.mem_cons, List.not_mem_nil, or_false] at hx
    rcases hx with rfl | rfl <;> omega)).1]
  simp [ha, hb]

end Verif.Props.SourceWork
