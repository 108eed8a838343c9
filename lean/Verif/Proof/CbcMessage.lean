import Verif.Proof.CbcMachine

/-! `aes_cbc.rs`: whole messages. -/

namespace Verif.AesCbc
open Verif Verif.Aes Verif.Pkcs7 Spec.Cbc
open Verif.Props.Aes (Holds init_valid init_invalid Matches)
open Verif.Props.Pkcs7 (unpad_rest pkcs7_facts)

/-! ### CBC encryption and decryption are inverse -/

theorem toVec (b : List U8) (h : b.length = 16) : ∃ v : Vector U8 16, v.toList = b :=
  ⟨⟨b.toArray, by simpa using h⟩, by simp⟩

theorem aes_dec_enc (key b : List U8) (h : b.length = 16) : Spec.Aes.decrypt key (Spec.Aes.encrypt key b) = b := by
  obtain ⟨v, rfl⟩ := toVec b h
  exact invCipher_cipher _ _ _

theorem aes_enc_dec (key b : List U8) (h : b.length = 16) : Spec.Aes.encrypt key (Spec.Aes.decrypt key b) = b := by
  obtain ⟨v, rfl⟩ := toVec b h
  exact cipher_invCipher _ _ _

theorem xor_xor (a b : List U8) (h : a.length = b.length) : Spec.xorBytes (Spec.xorBytes a b) b = a := by
  apply List.ext_getElem
  · simp [Spec.xorBytes, h]
  · intro i h1 h2
    simp [Spec.xorBytes, BitVec.xor_assoc]

theorem xor_length (a b : List U8) (h : a.length = 16) (h' : b.length = 16) : (Spec.xorBytes a b).length = 16 := by
  simp [Spec.xorBytes, h, h']

theorem decBlocks_encBlocks (key iv : List U8) (hiv : iv.length = 16) (p : List (List U8)) (hp : ∀ b ∈ p, b.length = 16) :
    decBlocks (Spec.Aes.decrypt key) iv (encBlocks (Spec.Aes.encrypt key) iv p) = p := by
  induction p generalizing iv with
  | nil => rfl
  | cons b p ih =>
    have hb := hp b (by simp)
    rw [encBlocks, decBlocks, ih _ (aes_encrypt_length _ _) (fun c hc => hp c (by simp [hc])),
      aes_dec_enc _ _ (xor_length _ _ hb hiv), xor_xor _ _ (hb.trans hiv.symm)]

theorem encBlocks_decBlocks (key iv : List U8) (hiv : iv.length = 16) (p : List (List U8)) (hp : ∀ b ∈ p, b.length = 16) :
    encBlocks (Spec.Aes.encrypt key) iv (decBlocks (Spec.Aes.decrypt key) iv p) = p := by
  induction p generalizing iv with
  | nil => rfl
  | cons b p ih =>
    have hb := hp b (by simp)
    rw [decBlocks, encBlocks, xor_xor _ _ ((aes_decrypt_length _ _).trans hiv.symm), aes_enc_dec _ _ hb,
      ih _ hb (fun c hc => hp c (by simp [hc]))]

theorem take_whole (s : List U8) (h : s.length % 16 = 0) : s.take (padCut 16 s.length) = s := by
  apply List.take_of_length_le
  rw [padCut]; omega

theorem decrypt_encrypt (key iv s : List U8) (hiv : iv.length = 16) (hs : s.length % 16 = 0) :
    decrypt key iv (encrypt key iv s) = s := by
  rw [decrypt, blocks_encrypt, decBlocks_encBlocks key iv hiv _ (mem_blocks s), flatten_blocks, take_whole s hs]

theorem encrypt_decrypt (key iv s : List U8) (hiv : iv.length = 16) (hs : s.length % 16 = 0) :
    encrypt key iv (decrypt key iv s) = s := by
  rw [decrypt, encrypt, blocks_flatten _ (mem_decBlocks key iv hiv _ (mem_blocks s)),
    encBlocks_decBlocks key iv hiv _ (mem_blocks s), flatten_blocks, take_whole s hs]

/-! ### A message through a `Decipher` -/

theorem decipher_message (T : Target) (key : List U8) (chunks : List (List U8)) (d : Decipher) (s hold : List U8)
    (h : Holds d.aes key) (hb : d.buffer = ⟨16, s⟩) (hs : s.length < 16) (hu : d.unpad = ⟨16, hold⟩)
    (hh : hold = [] ∨ hold.length = 16) :
    ∃ (d' : Decipher) (rs : List (List U8)) (r : Except DecipherError (List U8)),
      drun T d (chunks.map .write ++ [.flush]) = .ok (d', rs.map .ok ++ [r]) ∧ rs.length = chunks.length ∧
      (∀ i P, P = hold ++ decrypt key d.iv.toList (s ++ (chunks.take i).flatten) →
        (rs.take i).flatten = P.take (P.length - 16)) ∧
      d'.aes = d.aes ∧ d'.buffer = ⟨16, tail (s ++ chunks.flatten)⟩ ∧
      d'.iv.toList = lastBlock d.iv.toList (s ++ chunks.flatten) ∧
      (∀ P, P = hold ++ decrypt key d.iv.toList (s ++ chunks.flatten) →
        (P = [] ∧ r = .error (.PKCS7 .UnfinishedBlock) ∧ d'.unpad = ⟨16, []⟩) ∨
        (∃ v, P.getLast? = some v ∧ Trailer P v ∧ (∃ last, r = .ok last ∧ rs.flatten ++ last = P.take (P.length - v.toNat)) ∧
          d'.unpad = ⟨16, []⟩) ∨
        (∃ v, P.getLast? = some v ∧ ¬ Trailer P v ∧ r = .error (.PKCS7 .InvalidPadding) ∧
          d'.unpad = ⟨16, P.drop (P.length - 16)⟩)) := by
  have hh16 : hold.length ≤ 16 := by
    rcases hh with h | h
    · rw [h]; simp
    · omega
  have hmod (m : List U8) : (hold ++ decrypt key d.iv.toList m).length % 16 = 0 := by
    rw [List.length_append, decrypt_length _ _ _ (by simp)]
    rcases hh with h | h
    · rw [h]; simp
    · omega
  obtain ⟨d1, rs, h1, h2, h3, h4, h5, h6, h7⟩ := decipher_writes T key chunks d s hold h hb hs hu hh16
  have h3' : ∀ i P, P = hold ++ decrypt key d.iv.toList (s ++ (chunks.take i).flatten) →
        (rs.take i).flatten = P.take (P.length - 16) := by
    rintro i P rfl
    rw [h3 i _ rfl]
    change List.take (unpadCut 16 (hold ++ decrypt key d.iv.toList (s ++ (chunks.take i).flatten)).length) _ = _
    rw [unpadCut_whole _ (hmod _)]
    rfl
  have hfl : rs.flatten = (hold ++ decrypt key d.iv.toList (s ++ chunks.flatten)).take
      ((hold ++ decrypt key d.iv.toList (s ++ chunks.flatten)).length - 16) := by
    have := h3' chunks.length _ rfl
    rwa [List.take_length, ← h2, List.take_length] at this
  have h6 : d1.unpad = ⟨16, (hold ++ decrypt key d.iv.toList (s ++ chunks.flatten)).drop
      ((hold ++ decrypt key d.iv.toList (s ++ chunks.flatten)).length - 16)⟩ := by
    rw [h6 _ rfl]
    change Unpad.mk 16 (List.drop (unpadCut 16 (hold ++ decrypt key d.iv.toList (s ++ chunks.flatten)).length) _) = _
    rw [unpadCut_whole _ (hmod _)]
    rfl
  have hP := hmod (s ++ chunks.flatten)
  generalize hold ++ decrypt key d.iv.toList (s ++ chunks.flatten) = P at hfl h6 hP ⊢
  cases hlast : P.getLast? with
  | none =>
    have h0 : P = [] := List.getLast?_eq_none_iff.1 hlast
    subst h0
    refine ⟨d1, rs, .error (.PKCS7 .UnfinishedBlock), drun_append T h1 (drun_cons T (x := .flush) ?_ rfl), h2, h3', h4, h5,
      h7, ?_⟩
    · rw [dstep, Decipher.flush, h6, unpad_flush_unfinished _ _ _ (by simp)]
      rw [← h6]; rfl
    · rintro P rfl
      exact Or.inl ⟨rfl, rfl, h6⟩
  | some v =>
    have hne : P ≠ [] := by rintro rfl; cases hlast
    have hpos := List.length_pos_iff.2 hne
    have hlast' : (P.drop (P.length - 16)).getLast? = some v := by
      rw [List.getLast?_drop, if_neg (by omega), hlast]
    have hlen : (P.drop (P.length - 16)).length = 16 := by rw [List.length_drop]; omega
    obtain ⟨hf1, hf2⟩ := unpad_flush_full T 16 (by decide) (by decide) _ v hlen hlast'
    have hiff : padOk 16 (P.drop (P.length - 16)) v ↔ Trailer P v := by
      unfold padOk Trailer
      constructor
      · rintro ⟨a, b⟩
        rw [List.drop_drop, show P.length - 16 + (16 - v.toNat) = P.length - v.toNat by omega] at b
        exact ⟨a, b⟩
      · rintro ⟨a, b⟩
        rw [List.drop_drop, show P.length - 16 + (16 - v.toNat) = P.length - v.toNat by omega]
        exact ⟨a, b⟩
    by_cases hv : Trailer P v
    · refine ⟨{ d1 with unpad := ⟨16, []⟩ }, rs, .ok ((P.drop (P.length - 16)).take (16 - v.toNat)),
        drun_append T h1 (drun_cons T (x := .flush) ?_ rfl), h2, h3', h4, h5, h7, ?_⟩
      · rw [dstep, Decipher.flush, h6, hf1 (hiff.2 hv)]; rfl
      · rintro P rfl
        refine Or.inr (Or.inl ⟨v, hlast, hv, ⟨_, rfl, ?_⟩, rfl⟩)
        rw [hfl, ← List.take_add]
        congr 1
        have := hv.1
        omega
    · refine ⟨d1, rs, .error (.PKCS7 .InvalidPadding),
        drun_append T h1 (drun_cons T (x := .flush) ?_ rfl), h2, h3', h4, h5, h7, ?_⟩
      · rw [dstep, Decipher.flush, h6, hf2 (fun h => hv (hiff.1 h))]
        rw [← h6]; rfl
      · rintro P rfl
        exact Or.inr (Or.inr ⟨v, hlast, hv, rfl, h6⟩)

end Verif.AesCbc
