import Verif.Proof.CbcMessage

/-! Properties of `aes_cbc.rs`: encryption and decryption of messages, C28, C29, C30, C31, C32, C33, C34, C37, C44. -/

namespace Verif.Props.Cbc
open Verif Verif.Aes Verif.Pkcs7 Verif.AesCbc Spec.Cbc
open Verif.Props.Aes (Holds init_valid)
open Verif.Props.Pkcs7 (pkcs7_facts)

/-- The calls that send one message in pieces: `init`, one `write` for every piece, `flush`. -/
def session (key : List U8) (chunks : List (List U8)) : List Call := .init key :: (chunks.map .write ++ [.flush])

theorem cipher_session (T : Target) (iv : Vector U8 16) (key : List U8) (hk : validKey key) (chunks : List (List U8)) :
    ∃ (c : Cipher) (rs : List (List U8)) (last : List U8),
      crun T (Cipher.new iv) (session key chunks) = .ok (c, .ok [] :: (rs.map .ok ++ [.ok last])) ∧
      rs.length = chunks.length ∧ last.length = 16 ∧
      (∀ i, (rs.take i).flatten
        = (encBlocks (Spec.Aes.encrypt key) iv.toList (blocks (chunks.take i).flatten)).flatten) ∧
      rs.flatten ++ last = encrypt key iv.toList (pkcs7 16 chunks.flatten) := by
  obtain ⟨a, h1, h2⟩ := init_valid T AES.new key hk
  obtain ⟨c, rs, last, h3, h4, h5, h6, h7, _⟩ := cipher_message T key chunks ⟨a, ⟨16, []⟩, iv⟩ [] h2 rfl (by simp)
  refine ⟨c, rs, last, ?_, h4, h5, h6, h7⟩
  refine crun_cons T (x := .init key) ?_ h3
  rw [cstep, Cipher.init, show (Cipher.new iv).aes = AES.new from rfl, h1]
  rfl

theorem decipher_session (T : Target) (iv : Vector U8 16) (key : List U8) (hk : validKey key) (chunks : List (List U8)) :
    ∃ (d : Decipher) (rs : List (List U8)) (r : Except DecipherError (List U8)),
      drun T (Decipher.new iv) (session key chunks) = .ok (d, .ok [] :: (rs.map .ok ++ [r])) ∧
      rs.length = chunks.length ∧
      (∀ i P, P = decrypt key iv.toList (chunks.take i).flatten → (rs.take i).flatten = P.take (P.length - 16)) ∧
      (∀ P, P = decrypt key iv.toList chunks.flatten →
        (P = [] ∧ r = .error (.PKCS7 .UnfinishedBlock)) ∨
        (∃ v, P.getLast? = some v ∧ Trailer P v ∧ ∃ last, r = .ok last ∧ rs.flatten ++ last = P.take (P.length - v.toNat)) ∨
        (∃ v, P.getLast? = some v ∧ ¬ Trailer P v ∧ r = .error (.PKCS7 .InvalidPadding))) := by
  obtain ⟨a, h1, h2⟩ := init_valid T AES.new key hk
  obtain ⟨d, rs, r, h3, h4, h5, h6, h7, h8, h9⟩ := decipher_message T key chunks ⟨a, ⟨16, []⟩, iv, ⟨16, []⟩⟩ [] [] h2 rfl
    (by simp) rfl (Or.inl rfl)
  refine ⟨d, rs, r, ?_, h4, h5, ?_⟩
  · refine drun_cons T (x := .init key) ?_ h3
    rw [dstep, Decipher.init, show (Decipher.new iv).aes = AES.new from rfl, h1]
    rfl
  · rintro P rfl
    rcases h9 _ rfl with ⟨a, b, c⟩ | ⟨v, a, b, c, d⟩ | ⟨v, a, b, c, d⟩
    · exact Or.inl ⟨a, b⟩
    · exact Or.inr (Or.inl ⟨v, a, b, c⟩)
    · exact Or.inr (Or.inr ⟨v, a, b, c⟩)

/-! ### Encryption -/

/-- C28: whatever the pieces, no call fails and the answers of the writes and of the flush, joined, are the CBC encryption of
the padded message. -/
theorem C28_cbc_encrypt (T : Target) (iv : Vector U8 16) (key : List U8)
    (hk : key.length = 16 ∨ key.length = 24 ∨ key.length = 32) (chunks : List (List U8)) :
    ∃ (c : Cipher) (rs : List (List U8)) (last : List U8),
      crun T (Cipher.new iv) (.init key :: (chunks.map .write ++ [.flush])) = .ok (c, .ok [] :: (rs.map .ok ++ [.ok last])) ∧
      rs.length = chunks.length ∧
      rs.flatten ++ last = encrypt key iv.toList (pkcs7 16 chunks.flatten) := by
  obtain ⟨c, rs, last, h1, h2, _, _, h3⟩ := cipher_session T iv key hk chunks
  exact ⟨c, rs, last, h1, h2, h3⟩

/-- A message of 20 bytes in three pieces, one of them empty. -/
example (T : Target) (iv : Vector U8 16) := C28_cbc_encrypt T iv (List.replicate 24 1) (.inr (.inl rfl)) [List.replicate 15 2, [], List.replicate 5 3]

/-- C29: the lengths of the answers. -/
theorem C29_lengths (T : Target) (iv : Vector U8 16) (key : List U8)
    (hk : key.length = 16 ∨ key.length = 24 ∨ key.length = 32) (chunks : List (List U8)) :
    ∃ (c : Cipher) (rs : List (List U8)) (last : List U8),
      crun T (Cipher.new iv) (.init key :: (chunks.map .write ++ [.flush])) = .ok (c, .ok [] :: (rs.map .ok ++ [.ok last])) ∧
      (∀ r ∈ rs, r.length % 16 = 0) ∧ last.length = 16 ∧
      (rs.flatten ++ last).length = 16 * (chunks.flatten.length / 16 + 1) := by
  obtain ⟨c, rs, last, h1, h2, h3, h4, h5⟩ := cipher_session T iv key hk chunks
  have hlen (i : Nat) : (rs.take i).flatten.length = 16 * ((chunks.take i).flatten.length / 16) := by
    rw [h4]; exact encrypt_length key iv.toList _
  refine ⟨c, rs, last, h1, ?_, h3, ?_⟩
  · intro r hr
    obtain ⟨i, hi, rfl⟩ := List.getElem_of_mem hr
    have e := hlen (i + 1)
    rw [List.take_succ_eq_append_getElem hi, List.flatten_append, List.length_append, hlen i] at e
    simp only [List.flatten_cons, List.flatten_nil, List.append_nil] at e
    omega
  · have e := hlen rs.length
    rw [List.take_length, h2, List.take_length] at e
    rw [List.length_append, e, h3]
    omega

/-- The same message, under a key of 32 bytes. -/
example (T : Target) (iv : Vector U8 16) := C29_lengths T iv (List.replicate 32 1) (.inr (.inr rfl)) [List.replicate 15 2, [], List.replicate 5 3]

/-- C31: after every prefix of the writes, exactly the complete blocks of what was written have come out of a `Cipher`. -/
theorem C31_cipher_progress (T : Target) (iv : Vector U8 16) (key : List U8)
    (hk : key.length = 16 ∨ key.length = 24 ∨ key.length = 32) (chunks : List (List U8)) :
    ∃ (c : Cipher) (rs : List (List U8)) (last : List U8),
      crun T (Cipher.new iv) (.init key :: (chunks.map .write ++ [.flush])) = .ok (c, .ok [] :: (rs.map .ok ++ [.ok last])) ∧
      rs.length = chunks.length ∧
      ∀ i, (rs.take i).flatten = encrypt key iv.toList (chunks.take i).flatten ∧
        (rs.take i).flatten.length = 16 * ((chunks.take i).flatten.length / 16) ∧
        (chunks.take i).flatten.length ≤ (rs.take i).flatten.length + 15 := by
  obtain ⟨c, rs, last, h1, h2, h3, h4, h5⟩ := cipher_session T iv key hk chunks
  have hlen (i : Nat) : (rs.take i).flatten.length = 16 * ((chunks.take i).flatten.length / 16) := by
    rw [h4]; exact encrypt_length key iv.toList _
  refine ⟨c, rs, last, h1, h2, fun i => ⟨h4 i, hlen i, ?_⟩⟩
  rw [hlen i]; omega

/-- The same message, under a key of 16 bytes. -/
example (T : Target) (iv : Vector U8 16) := C31_cipher_progress T iv (List.replicate 16 1) (.inl rfl) [List.replicate 15 2, [], List.replicate 5 3]

/-- C31: after every prefix of the writes, exactly the complete decrypted blocks but the last one have come out of a
`Decipher`. -/
theorem C31_decipher_progress (T : Target) (iv : Vector U8 16) (key : List U8)
    (hk : key.length = 16 ∨ key.length = 24 ∨ key.length = 32) (chunks : List (List U8)) :
    ∃ (d : Decipher) (rs : List (List U8)) (r : Except DecipherError (List U8)),
      drun T (Decipher.new iv) (.init key :: (chunks.map .write ++ [.flush])) = .ok (d, .ok [] :: (rs.map .ok ++ [r])) ∧
      rs.length = chunks.length ∧
      ∀ i, (rs.take i).flatten = (decrypt key iv.toList (chunks.take i).flatten).take
          (16 * ((chunks.take i).flatten.length / 16 - 1)) ∧
        (rs.take i).flatten.length = 16 * ((chunks.take i).flatten.length / 16 - 1) ∧
        (chunks.take i).flatten.length ≤ (rs.take i).flatten.length + 31 := by
  obtain ⟨d, rs, r, h1, h2, h3, h4⟩ := decipher_session T iv key hk chunks
  have hP (i : Nat) : (rs.take i).flatten = (decrypt key iv.toList (chunks.take i).flatten).take
          (16 * ((chunks.take i).flatten.length / 16 - 1)) := by
    rw [h3 i _ rfl, decrypt_length _ _ _ (by simp)]
    congr 1
    omega
  have hlen (i : Nat) : (rs.take i).flatten.length = 16 * ((chunks.take i).flatten.length / 16 - 1) := by
    rw [hP, List.length_take, decrypt_length _ _ _ (by simp)]
    omega
  refine ⟨d, rs, r, h1, h2, fun i => ⟨hP i, hlen i, ?_⟩⟩
  rw [hlen]; omega

/-- A ciphertext of two blocks and three bytes, in two pieces. -/
example (T : Target) (iv : Vector U8 16) := C31_decipher_progress T iv (List.replicate 16 1) (.inl rfl) [List.replicate 15 2, List.replicate 20 3]

/-! ### Decryption -/

/-- C32: the exact behaviour of a `Decipher` on whole blocks. -/
theorem C32_cbc_decrypt (T : Target) (iv : Vector U8 16) (key : List U8)
    (hk : key.length = 16 ∨ key.length = 24 ∨ key.length = 32) (chunks : List (List U8))
    (P : List U8) (hP : P = decrypt key iv.toList chunks.flatten) (hm : chunks.flatten.length % 16 = 0) :
    ∃ (d : Decipher) (rs : List (List U8)) (r : Except DecipherError (List U8)),
      drun T (Decipher.new iv) (.init key :: (chunks.map .write ++ [.flush])) = .ok (d, .ok [] :: (rs.map .ok ++ [r])) ∧
      rs.length = chunks.length ∧ P.length = chunks.flatten.length ∧ rs.flatten = P.take (P.length - 16) ∧
      (r = .error (.PKCS7 .UnfinishedBlock) ↔ chunks.flatten = []) ∧
      (r = .error (.PKCS7 .InvalidPadding) ↔
        ∃ v, P.getLast? = some v ∧ (16 < v.toNat ∨ ∃ b ∈ P.drop (P.length - v.toNat), b ≠ v)) ∧
      ((∃ last, r = .ok last) ↔
        ∃ v, P.getLast? = some v ∧ v.toNat ≤ 16 ∧ ∀ b ∈ P.drop (P.length - v.toNat), b = v) ∧
      (∀ v last, P.getLast? = some v → r = .ok last → rs.flatten ++ last = P.take (P.length - v.toNat)) := by
  obtain ⟨d, rs, r, h1, h2, h3, h4⟩ := decipher_session T iv key hk chunks
  have hlen : P.length = chunks.flatten.length := by
    rw [hP, decrypt_length _ _ _ (by simp)]; omega
  have hnil : P = [] ↔ chunks.flatten = [] := by
    rw [← List.length_eq_zero_iff, ← List.length_eq_zero_iff (l := chunks.flatten), hlen]
  refine ⟨d, rs, r, h1, h2, hlen, ?_, ?_⟩
  · have := h3 chunks.length P (by rw [List.take_length]; exact hP)
    rwa [← h2, List.take_length] at this
  rcases h4 P hP with ⟨a, b⟩ | ⟨v, a, b, last, c, e⟩ | ⟨v, a, b, c⟩
  · subst b
    refine ⟨iff_of_true rfl (hnil.1 a), ?_, ?_, ?_⟩
    · rw [a]; simp
    · rw [a]; simp
    · intro v last hv; rw [a] at hv; cases hv
  · subst c
    have hne : P ≠ [] := by intro h0; rw [h0] at a; cases a
    refine ⟨iff_of_false (by simp) (fun h => hne (hnil.2 h)), iff_of_false (by simp) ?_, iff_of_true ⟨_, rfl⟩ ⟨v, a, b⟩, ?_⟩
    · rintro ⟨w, hw, h⟩
      rw [a] at hw
      injection hw with hw
      subst hw
      rcases h with h | ⟨x, hx, hxv⟩
      · have := b.1; omega
      · exact hxv (b.2 x hx)
    · intro w l hw hl
      rw [a] at hw
      injection hw with hw
      injection hl with hl
      subst hw hl
      exact e
  · subst c
    have hne : P ≠ [] := by intro h0; rw [h0] at a; cases a
    refine ⟨iff_of_false (by simp) (fun h => hne (hnil.2 h)), iff_of_true rfl ⟨v, a, ?_⟩, iff_of_false (by simp) ?_, ?_⟩
    · unfold Trailer at b
      by_cases hv : 16 < v.toNat
      · exact Or.inl hv
      · right
        by_cases hx : ∃ x ∈ P.drop (P.length - v.toNat), x ≠ v
        · exact hx
        · exfalso
          apply b
          refine ⟨by omega, fun x hxm => ?_⟩
          by_cases e : x = v
          · exact e
          · exact absurd ⟨x, hxm, e⟩ hx
    · rintro ⟨w, hw, h⟩
      rw [a] at hw
      injection hw with hw
      subst hw
      exact b h
    · intro w l _ hl
      cases hl

/-- A ciphertext of two blocks, in two pieces. -/
example (T : Target) (iv : Vector U8 16) := C32_cbc_decrypt T iv (List.replicate 16 1) (.inl rfl) [List.replicate 15 2, List.replicate 17 3] _ rfl (by decide)

theorem pkcs7_trailer (m : List U8) : ∃ v : U8, 1 ≤ v.toNat ∧ (pkcs7 16 m).getLast? = some v ∧ Trailer (pkcs7 16 m) v ∧
    (pkcs7 16 m).take ((pkcs7 16 m).length - v.toNat) = m := by
  obtain ⟨v, h1, h2, h3, h4⟩ := pkcs7_facts 16 (by decide) (by decide) m
  have hl : (pkcs7 16 m).length - v.toNat = m.length := by rw [h3]; simp
  refine ⟨v, h1, ?_, ⟨h2, ?_⟩, ?_⟩
  · rw [h3, List.getLast?_append, List.getLast?_replicate, if_neg (by omega)]; rfl
  · intro b hb
    rw [hl, h3, List.drop_left] at hb
    exact (List.mem_replicate.1 hb).2
  · rw [hl, h3, List.take_left]

/-- C30: a ciphertext, cut anywhere else, decrypts to the message. -/
theorem C30_roundtrip (T : Target) (iv : Vector U8 16) (key : List U8)
    (hk : key.length = 16 ∨ key.length = 24 ∨ key.length = 32) (chunks : List (List U8)) :
    ∃ (c : Cipher) (rs : List (List U8)) (last : List U8),
      crun T (Cipher.new iv) (.init key :: (chunks.map .write ++ [.flush])) = .ok (c, .ok [] :: (rs.map .ok ++ [.ok last])) ∧
      ∀ chunks' : List (List U8), chunks'.flatten = rs.flatten ++ last →
        ∃ (d : Decipher) (rs' : List (List U8)) (last' : List U8),
          drun T (Decipher.new iv) (.init key :: (chunks'.map .write ++ [.flush]))
            = .ok (d, .ok [] :: (rs'.map .ok ++ [.ok last'])) ∧
          rs'.flatten ++ last' = chunks.flatten := by
  obtain ⟨c, rs, last, h1, h2, _, _, h3⟩ := cipher_session T iv key hk chunks
  refine ⟨c, rs, last, h1, fun chunks' h => ?_⟩
  rw [h3] at h
  obtain ⟨d, rs', r, h4, h5, h6, h7⟩ := decipher_session T iv key hk chunks'
  obtain ⟨v, _, hv1, hv2, hv3⟩ := pkcs7_trailer chunks.flatten
  have hd : decrypt key iv.toList chunks'.flatten = pkcs7 16 chunks.flatten := by
    rw [h, decrypt_encrypt _ _ _ (by simp)]
    rw [pkcs7_length]; omega
  rw [hd] at h7
  rcases h7 _ rfl with ⟨a, b⟩ | ⟨w, a, b, last', c, e⟩ | ⟨w, a, b, c⟩
  · rw [a] at hv1; cases hv1
  · rw [hv1] at a
    injection a with a
    subst a
    exact ⟨d, rs', last', by rw [← c]; exact h4, e.trans hv3⟩
  · rw [hv1] at a
    injection a with a
    subst a
    exact absurd hv2 b

/-- A message of 20 bytes in three pieces. -/
example (T : Target) (iv : Vector U8 16) := C30_roundtrip T iv (List.replicate 24 1) (.inr (.inl rfl)) [List.replicate 15 2, [], List.replicate 5 3]

/-! ### Padding that should be rejected -/

/-- C33 does not hold: for every key and iv, data made of whole blocks whose last byte is 0 (so the data is not PKCS#7
padded), encrypted with CBC and given to a `Decipher` in any pieces, is accepted by `flush` and returned whole. -/
theorem C33_refuted (T : Target) (iv : Vector U8 16) (key : List U8)
    (hk : key.length = 16 ∨ key.length = 24 ∨ key.length = 32) (P : List U8) (hm : P.length % 16 = 0)
    (hl : P.getLast? = some 0) (chunks : List (List U8)) (hc : chunks.flatten = encrypt key iv.toList P) :
    ∃ (d : Decipher) (rs : List (List U8)) (last : List U8),
      drun T (Decipher.new iv) (.init key :: (chunks.map .write ++ [.flush]))
        = .ok (d, .ok [] :: (rs.map .ok ++ [.ok last])) ∧
      rs.flatten ++ last = P := by
  obtain ⟨d, rs, r, h1, h2, h3, h4⟩ := decipher_session T iv key hk chunks
  have hd : decrypt key iv.toList chunks.flatten = P := by rw [hc, decrypt_encrypt _ _ _ (by simp) hm]
  rw [hd] at h4
  have ht : Trailer P 0 := ⟨by decide, by simp⟩
  rcases h4 _ rfl with ⟨a, b⟩ | ⟨w, a, b, last, c, e⟩ | ⟨w, a, b, c⟩
  · rw [a] at hl; cases hl
  · rw [hl] at a
    injection a with a
    subst a
    refine ⟨d, rs, last, by rw [← c]; exact h1, ?_⟩
    rw [e]
    exact List.take_of_length_le (by simp)
  · rw [hl] at a
    injection a with a
    subst a
    exact absurd ht b

/-- A block of 16 zero bytes. -/
example (T : Target) (iv : Vector U8 16) := C33_refuted T iv (List.replicate 16 1) (.inl rfl) (List.replicate 16 0) rfl rfl
  [encrypt (List.replicate 16 1) iv.toList (List.replicate 16 0)] (by simp)

/-- A block of 16 zero bytes meets the hypotheses of `C33_refuted`. -/
example : (List.replicate 16 (0 : U8)).length % 16 = 0 ∧ (List.replicate 16 (0 : U8)).getLast? = some 0 := by decide

/-- C33, what does hold: if `flush` succeeds, the decrypted data ends in `v` bytes of value `v` with `v ≤ 16`, and the answers
joined are the data without these; `1 ≤ v` is missing, see `C33_refuted`: a last byte 0 is accepted too. -/
theorem C33_padding_partial (T : Target) (iv : Vector U8 16) (key : List U8)
    (hk : key.length = 16 ∨ key.length = 24 ∨ key.length = 32) (chunks : List (List U8)) (d : Decipher)
    (rs : List (List U8)) (last : List U8)
    (h : drun T (Decipher.new iv) (.init key :: (chunks.map .write ++ [.flush]))
      = .ok (d, .ok [] :: (rs.map .ok ++ [.ok last]))) :
    ∃ (m : List U8) (v : U8), v.toNat ≤ 16 ∧ decrypt key iv.toList chunks.flatten = m ++ List.replicate v.toNat v ∧
      rs.flatten ++ last = m ∧ (v = 0 → m.getLast? = some 0) := by
  obtain ⟨d', rs', r, h1, h2, h3, h4⟩ := decipher_session T iv key hk chunks
  rw [session, h] at h1
  injection h1 with h1
  injection h1 with _ h1
  injection h1 with _ h1
  obtain ⟨h1, h5⟩ := List.append_inj' h1 rfl
  injection h5 with h5
  have hrs : rs = rs' := (List.map_inj_right (fun _ _ e => by injection e)).1 h1
  subst hrs
  subst h5
  have hmod : (decrypt key iv.toList chunks.flatten).length % 16 = 0 := by rw [decrypt_length _ _ _ (by simp)]; omega
  generalize decrypt key iv.toList chunks.flatten = P at h4 hmod ⊢
  rcases h4 _ rfl with ⟨a, b⟩ | ⟨v, a, b, last', c, e⟩ | ⟨w, a, b, c⟩
  · cases b
  · injection c with c
    subst c
    refine ⟨P.take (P.length - v.toNat), v, b.1, ?_, e, ?_⟩
    · conv => lhs; rw [← List.take_append_drop (P.length - v.toNat) P]
      congr 1
      refine List.eq_replicate_iff.2 ⟨?_, b.2⟩
      rw [List.length_drop]
      have hne : P ≠ [] := by intro h0; rw [h0] at a; cases a
      have := List.length_pos_iff.2 hne
      have := b.1
      omega
    · rintro rfl
      rw [show P.length - (0 : U8).toNat = P.length by simp, List.take_length, a]
  · cases c

/-- It applies to the message of 16 zero bytes that `C33_refuted` is about. -/
example (T : Target) (iv : Vector U8 16) : ∃ (d : Decipher) (rs : List (List U8)) (last : List U8),
    drun T (Decipher.new iv) (.init (List.replicate 16 1) :: ([encrypt (List.replicate 16 1) iv.toList (List.replicate 16 0)].map .write ++ [.flush]))
      = .ok (d, .ok [] :: (rs.map .ok ++ [.ok last])) ∧
    ∃ (m : List U8) (v : U8), v.toNat ≤ 16 ∧ rs.flatten ++ last = m ∧ (v = 0 → m.getLast? = some 0) := by
  obtain ⟨d, rs, last, h, _⟩ := C33_refuted T iv (List.replicate 16 1) (.inl rfl) (List.replicate 16 0) rfl rfl
    [encrypt (List.replicate 16 1) iv.toList (List.replicate 16 0)] (by simp)
  obtain ⟨m, v, h1, _, h2, h3⟩ := C33_padding_partial T iv (List.replicate 16 1) (.inl rfl) _ d rs last h
  exact ⟨d, rs, last, h, m, v, h1, h2, h3⟩

/-! ### Incomplete last blocks -/

theorem decrypt_append_short (key iv m t : List U8) (hm : m.length % 16 = 0) (ht : t.length < 16) :
    decrypt key iv (m ++ t) = decrypt key iv m := by
  rw [decrypt, decrypt, blocks_append]
  have : m.drop (padCut 16 m.length) = [] := by
    apply List.drop_of_length_le; rw [padCut]; omega
  rw [this, List.nil_append, blocks_short t ht, List.append_nil]

/-- C34 does not hold: a ciphertext followed by 1 to 15 further bytes is accepted, and these bytes are ignored by `flush`. -/
theorem C34_refuted (T : Target) (iv : Vector U8 16) (key : List U8)
    (hk : key.length = 16 ∨ key.length = 24 ∨ key.length = 32) (m junk : List U8) (hj : junk.length < 16)
    (chunks : List (List U8)) (hc : chunks.flatten = encrypt key iv.toList (pkcs7 16 m) ++ junk) :
    ∃ (d : Decipher) (rs : List (List U8)) (last : List U8),
      drun T (Decipher.new iv) (.init key :: (chunks.map .write ++ [.flush]))
        = .ok (d, .ok [] :: (rs.map .ok ++ [.ok last])) ∧
      rs.flatten ++ last = m := by
  obtain ⟨d, rs, r, h1, h2, h3, h4⟩ := decipher_session T iv key hk chunks
  have hp : (pkcs7 16 m).length % 16 = 0 := by rw [pkcs7_length]; omega
  have hd : decrypt key iv.toList chunks.flatten = pkcs7 16 m := by
    rw [hc, decrypt_append_short _ _ _ _ (by rw [encrypt_length]; omega) hj, decrypt_encrypt _ _ _ (by simp) hp]
  rw [hd] at h4
  obtain ⟨v, _, hv1, hv2, hv3⟩ := pkcs7_trailer m
  rcases h4 _ rfl with ⟨a, b⟩ | ⟨w, a, b, last, c, e⟩ | ⟨w, a, b, c⟩
  · rw [a] at hv1; cases hv1
  · rw [hv1] at a
    injection a with a
    subst a
    exact ⟨d, rs, last, by rw [← c]; exact h1, e.trans hv3⟩
  · rw [hv1] at a
    injection a with a
    subst a
    exact absurd hv2 b

/-- Seven bytes too many after the ciphertext of a message of three bytes. -/
example (T : Target) (iv : Vector U8 16) := C34_refuted T iv (List.replicate 16 1) (.inl rfl) [1, 2, 3] (List.replicate 7 9) (by decide)
  [encrypt (List.replicate 16 1) iv.toList (pkcs7 16 [1, 2, 3]), List.replicate 7 9] (by simp)

/-- C34, what does hold: with an incomplete first block `flush` fails. Missing: an incomplete block after complete ones, for
which `C34_refuted` shows that `flush` can succeed. -/
theorem C34_incomplete_partial (T : Target) (iv : Vector U8 16) (key : List U8)
    (hk : key.length = 16 ∨ key.length = 24 ∨ key.length = 32) (chunks : List (List U8)) (h : chunks.flatten.length < 16) :
    ∃ (d : Decipher) (rs : List (List U8)),
      drun T (Decipher.new iv) (.init key :: (chunks.map .write ++ [.flush]))
        = .ok (d, .ok [] :: (rs.map .ok ++ [.error (.PKCS7 .UnfinishedBlock)])) ∧ rs.flatten = [] := by
  obtain ⟨d, rs, r, h1, h2, h3, h4⟩ := decipher_session T iv key hk chunks
  have hd : decrypt key iv.toList chunks.flatten = [] := by
    rw [decrypt, blocks_short _ h]; rfl
  have hf := h3 chunks.length _ rfl
  rw [List.take_length, ← h2, List.take_length, hd] at hf
  rw [hd] at h4
  rcases h4 _ rfl with ⟨a, b⟩ | ⟨w, a, _⟩ | ⟨w, a, _⟩
  · exact ⟨d, rs, by rw [← b]; exact h1, hf⟩
  · cases a
  · cases a

/-- Fifteen bytes in two pieces. -/
example (T : Target) (iv : Vector U8 16) := C34_incomplete_partial T iv (List.replicate 16 1) (.inl rfl) [List.replicate 7 9, List.replicate 8 2] (by decide)

/-! ### Message sequences -/

/-- Several messages on one `Cipher`, each given in pieces and ended by `flush`; the answers to every message. -/
def encMessages (T : Target) : Cipher → List (List (List U8)) → M (Cipher × List (List (Except AESError (List U8))))
  | c, [] => return (c, [])
  | c, chunks :: ms => do
    let (c, rs) ← crun T c (chunks.map .write ++ [.flush])
    let (c, rss) ← encMessages T c ms
    return (c, rs :: rss)

/-- Several messages on one `Decipher`, each given in pieces and ended by `flush`; the answers to every message. -/
def decMessages (T : Target) : Decipher → List (List (List U8)) → M (Decipher × List (List (Except DecipherError (List U8))))
  | d, [] => return (d, [])
  | d, chunks :: ms => do
    let (d, rs) ← drun T d (chunks.map .write ++ [.flush])
    let (d, rss) ← decMessages T d ms
    return (d, rs :: rss)

theorem encMessages_spec (T : Target) (key : List U8) (msgs : List (List (List U8))) (c : Cipher)
    (h : Holds c.aes key) (hp : c.pad = ⟨16, []⟩) :
    ∃ (c' : Cipher) (outs : List (List (List U8))),
      encMessages T c msgs = .ok (c', outs.map (·.map .ok)) ∧
      outs.map (·.flatten) = chain key c.iv.toList (msgs.map (·.flatten)) := by
  induction msgs generalizing c with
  | nil => exact ⟨c, [], rfl, rfl⟩
  | cons chunks msgs ih =>
    obtain ⟨c1, rs, last, h1, h2, h3, h4, h5, h6, h7, h8⟩ := cipher_message T key chunks c [] h hp (by simp)
    obtain ⟨c2, outs, h9, h10⟩ := ih c1 (h6 ▸ h) h7
    rw [List.nil_append] at h5
    have hl : lastBlock c.iv.toList (rs.flatten ++ last) = last := by
      have hrs : rs.flatten.length % 16 = 0 := by
        have := h4 rs.length
        rw [List.take_length] at this
        rw [this]
        have := encrypt_length key c.iv.toList ([] ++ (chunks.take rs.length).flatten)
        rw [encrypt] at this
        rw [this]
        omega
      rw [lastBlock, blocks_append, show rs.flatten.drop (padCut 16 rs.flatten.length) = [] by
        apply List.drop_of_length_le; rw [padCut]; omega, List.nil_append]
      have := blocks_cons last [] h3
      rw [List.append_nil, blocks_short [] (by simp)] at this
      rw [this, getLastD_append]
      rfl
    refine ⟨c2, (rs ++ [last]) :: outs, ?_, ?_⟩
    · rw [encMessages, h1]
      simp only [ok_bind]
      rw [h9]
      simp [pure_eq_ok]
    · rw [List.map_cons, List.map_cons, chain, ← h5, hl, ← h8, ← h10, List.flatten_append]
      simp

theorem decMessages_spec (T : Target) (key : List U8) (msgs : List (List U8)) (d : Decipher)
    (h : Holds d.aes key) (hb : d.buffer = ⟨16, []⟩) (hu : d.unpad = ⟨16, []⟩) (pieces : List (List (List U8)))
    (hc : pieces.map (·.flatten) = chain key d.iv.toList msgs) :
    ∃ (d' : Decipher) (outs : List (List (List U8))),
      decMessages T d pieces = .ok (d', outs.map (·.map .ok)) ∧ outs.map (·.flatten) = msgs := by
  induction msgs generalizing d pieces with
  | nil =>
    have : pieces = [] := by simpa [chain] using hc
    subst this
    exact ⟨d, [], rfl, rfl⟩
  | cons m msgs ih =>
    cases pieces with
    | nil => simp [chain] at hc
    | cons chunks pieces =>
      rw [List.map_cons, chain] at hc
      injection hc with hc1 hc2
      obtain ⟨d1, rs, r, h1, h2, h3, h4, h5, h6, h7⟩ := decipher_message T key chunks d [] [] h hb (by simp) hu (Or.inl rfl)
      have hp : (pkcs7 16 m).length % 16 = 0 := by rw [pkcs7_length]; omega
      rw [List.nil_append, hc1] at h5 h6
      rw [List.nil_append, List.nil_append, hc1, decrypt_encrypt _ _ _ (by simp) hp] at h7
      have hb' : d1.buffer = ⟨16, []⟩ := by
        rw [h5, tail, encrypt_length]
        congr 1
        apply List.drop_of_length_le; rw [encrypt_length]; omega
      obtain ⟨v, _, hv1, hv2, hv3⟩ := pkcs7_trailer m
      rcases h7 _ rfl with ⟨a, b⟩ | ⟨w, a, b, ⟨last, c, e⟩, f⟩ | ⟨w, a, b, c⟩
      · rw [a] at hv1; cases hv1
      · rw [hv1] at a
        injection a with a
        subst a
        obtain ⟨d2, outs, h8, h9⟩ := ih d1 (h4 ▸ h) hb' f pieces (by rw [hc2, h6])
        refine ⟨d2, (rs ++ [last]) :: outs, ?_, ?_⟩
        · rw [decMessages, h1, c]
          simp only [ok_bind]
          rw [h8]
          simp [pure_eq_ok]
        · rw [List.map_cons, h9, List.flatten_append]
          simp only [List.flatten_cons, List.flatten_nil, List.append_nil]
          rw [e, hv3]
      · rw [hv1] at a
        injection a with a
        subst a
        exact absurd hv2 b

/-- C37: any number of messages through one `Cipher`, the ciphertext of every message cut anywhere and given to one `Decipher`
which flushes at the ends of the messages: every message comes back. The ciphertexts are chained: the last block of one is the
iv of the next. -/
theorem C37_message_sequences (T : Target) (iv : Vector U8 16) (key : List U8)
    (hk : key.length = 16 ∨ key.length = 24 ∨ key.length = 32) (msgs : List (List (List U8))) :
    ∃ (c c' : Cipher) (cts : List (List (List U8))),
      (Cipher.new iv).init T key = .ok (c, .ok ()) ∧
      encMessages T c msgs = .ok (c', cts.map (·.map .ok)) ∧
      cts.map (·.flatten) = chain key iv.toList (msgs.map (·.flatten)) ∧
      ∀ pieces : List (List (List U8)), pieces.map (·.flatten) = cts.map (·.flatten) →
        ∃ (d d' : Decipher) (outs : List (List (List U8))),
          (Decipher.new iv).init T key = .ok (d, .ok ()) ∧
          decMessages T d pieces = .ok (d', outs.map (·.map .ok)) ∧
          outs.map (·.flatten) = msgs.map (·.flatten) := by
  obtain ⟨a, h1, h2⟩ := init_valid T AES.new key hk
  obtain ⟨c', cts, h3, h4⟩ := encMessages_spec T key msgs ⟨a, ⟨16, []⟩, iv⟩ h2 rfl
  refine ⟨_, c', cts, ?_, h3, h4, fun pieces hp => ?_⟩
  · rw [Cipher.init, show (Cipher.new iv).aes = AES.new from rfl, h1]
    rfl
  · rw [h4] at hp
    obtain ⟨d', outs, h5, h6⟩ := decMessages_spec T key (msgs.map (·.flatten)) ⟨a, ⟨16, []⟩, iv, ⟨16, []⟩⟩ h2 rfl rfl pieces hp
    refine ⟨_, d', outs, ?_, h5, h6⟩
    rw [Decipher.init, show (Decipher.new iv).aes = AES.new from rfl, h1]
    rfl

/-- Three messages, one of them empty. -/
example (T : Target) (iv : Vector U8 16) := C37_message_sequences T iv (List.replicate 16 1) (.inl rfl)
  [[List.replicate 7 9, List.replicate 9 2], [], [List.replicate 20 3]]

/-! ### Injectivity -/

theorem pkcs7_injective (m m' : List U8) (h : pkcs7 16 m = pkcs7 16 m') : m = m' := by
  obtain ⟨v, _, h1, _, h3⟩ := pkcs7_trailer m
  obtain ⟨v', _, h1', _, h3'⟩ := pkcs7_trailer m'
  rw [h, h1'] at h1
  injection h1 with h1
  subst h1
  rw [← h3, h, h3']

/-- C44: with the same key and iv, different messages have different ciphertexts, whatever the pieces. -/
theorem C44_message (T : Target) (iv : Vector U8 16) (key : List U8)
    (hk : key.length = 16 ∨ key.length = 24 ∨ key.length = 32) (chunks chunks' : List (List U8)) :
    ∃ (c c' : Cipher) (rs rs' : List (List U8)) (last last' : List U8),
      crun T (Cipher.new iv) (.init key :: (chunks.map .write ++ [.flush]))
        = .ok (c, .ok [] :: (rs.map .ok ++ [.ok last])) ∧
      crun T (Cipher.new iv) (.init key :: (chunks'.map .write ++ [.flush]))
        = .ok (c', .ok [] :: (rs'.map .ok ++ [.ok last'])) ∧
      (rs.flatten ++ last = rs'.flatten ++ last' ↔ chunks.flatten = chunks'.flatten) := by
  obtain ⟨c, rs, last, h1, _, _, _, h2⟩ := cipher_session T iv key hk chunks
  obtain ⟨c', rs', last', h1', _, _, _, h2'⟩ := cipher_session T iv key hk chunks'
  refine ⟨c, c', rs, rs', last, last', h1, h1', ?_⟩
  rw [h2, h2']
  constructor
  · intro h
    have := congrArg (decrypt key iv.toList) h
    rw [decrypt_encrypt _ _ _ (by simp) (by rw [pkcs7_length]; omega),
      decrypt_encrypt _ _ _ (by simp) (by rw [pkcs7_length]; omega)] at this
    exact pkcs7_injective _ _ this
  · intro h
    rw [h]

/-- The same message cut in two ways. -/
example (T : Target) (iv : Vector U8 16) := C44_message T iv (List.replicate 16 1) (.inl rfl) [[1, 2], [3]] [[1], [], [2, 3]]

theorem xor_injective (a b c : List U8) (h1 : b.length = a.length) (h2 : c.length = a.length)
    (h : Spec.xorBytes a b = Spec.xorBytes a c) : b = c := by
  have e (x : List U8) (hx : x.length = a.length) : Spec.xorBytes (Spec.xorBytes a x) a = x := by
    apply List.ext_getElem
    · simp [Spec.xorBytes, hx]
    · intro i _ _
      simp only [Spec.xorBytes, List.getElem_zipWith]
      rw [BitVec.xor_comm a[i], BitVec.xor_assoc, BitVec.xor_self, BitVec.xor_zero]
  rw [← e b h1, h, e c h2]

/-- C44: with the same key and message, different ivs give different ciphertexts; already the first blocks differ. -/
theorem C44_iv (T : Target) (iv iv' : Vector U8 16) (key : List U8)
    (hk : key.length = 16 ∨ key.length = 24 ∨ key.length = 32) (chunks chunks' : List (List U8))
    (hm : chunks.flatten = chunks'.flatten) :
    ∃ (c c' : Cipher) (rs rs' : List (List U8)) (last last' : List U8),
      crun T (Cipher.new iv) (.init key :: (chunks.map .write ++ [.flush]))
        = .ok (c, .ok [] :: (rs.map .ok ++ [.ok last])) ∧
      crun T (Cipher.new iv') (.init key :: (chunks'.map .write ++ [.flush]))
        = .ok (c', .ok [] :: (rs'.map .ok ++ [.ok last'])) ∧
      ((rs.flatten ++ last).take 16 = (rs'.flatten ++ last').take 16 ↔ iv = iv') := by
  obtain ⟨c, rs, last, h1, _, _, _, h2⟩ := cipher_session T iv key hk chunks
  obtain ⟨c', rs', last', h1', _, _, _, h2'⟩ := cipher_session T iv' key hk chunks'
  refine ⟨c, c', rs, rs', last, last', h1, h1', ?_⟩
  rw [h2, h2', ← hm]
  constructor
  · intro h
    have hl := blocks_length (pkcs7 16 chunks.flatten)
    rw [pkcs7_length] at hl
    rw [encrypt, encrypt] at h
    have hb := mem_blocks (pkcs7 16 chunks.flatten)
    cases e : blocks (pkcs7 16 chunks.flatten) with
    | nil => rw [e, List.length_nil] at hl; omega
    | cons p ps =>
      rw [e] at h hb
      have hp := hb p (by simp)
      have f (w : List U8) : List.take 16 (encBlocks (Spec.Aes.encrypt key) w (p :: ps)).flatten
          = Spec.Aes.encrypt key (Spec.xorBytes p w) := by
        rw [encBlocks, List.flatten_cons, List.take_append_of_le_length (by rw [aes_encrypt_length]; omega)]
        exact List.take_of_length_le (by rw [aes_encrypt_length]; omega)
      rw [f, f] at h
      have := congrArg (Spec.Aes.decrypt key) h
      rw [aes_dec_enc _ _ (xor_length _ _ hp (by simp)), aes_dec_enc _ _ (xor_length _ _ hp (by simp))] at this
      exact Vector.toList_inj.1 (xor_injective p _ _ (by simp [hp]) (by simp [hp]) this)
  · rintro rfl
    rfl

/-- The same message cut in two ways. -/
example (T : Target) (iv iv' : Vector U8 16) := C44_iv T iv iv' (List.replicate 16 1) (.inl rfl) [[1, 2], [3]] [[1], [], [2, 3]] rfl

end Verif.Props.Cbc
