import Verif.Props.CbcSpread

/-! C108: what decrypted blocks show about the initialization vector. -/

namespace Verif.Props.SecretIv
open Verif Verif.Aes Verif.Pkcs7 Verif.AesCbc Spec.Cbc
open Verif.Props.Cbc (decipher_session)
open Verif.Props.CbcMisuse (blockAt prevBlock blockAt_append blockAt_length prevBlock_length xor_cross)

theorem blockAt_decrypt_blocks (key : List U8) (cs : List (List U8)) (iv : List U8) (i : Nat) (hc : ∀ c ∈ cs, c.length = 16) (hiv : iv.length = 16)
    (hi : i < cs.length) :
    blockAt (decBlocks (Spec.Aes.decrypt key) iv cs).flatten i =
      Spec.xorBytes (Spec.Aes.decrypt key (blockAt cs.flatten i)) (prevBlock iv cs.flatten i) := by
  induction cs generalizing iv i with
  | nil => simp at hi
  | cons c cs ih =>
    have hc0 := hc c (by simp)
    have hx := xor_length _ _ (aes_decrypt_length key c) hiv
    simp only [decBlocks, List.flatten_cons]
    cases i with
    | zero =>
      rw [blockAt, blockAt, prevBlock, Nat.mul_zero, List.drop_zero, List.drop_zero, List.take_left' hx, List.take_left' hc0]
    | succ i =>
      rw [blockAt_append _ _ _ hx, blockAt_append _ _ _ hc0, ih _ _ (fun q hq => hc q (by simp [hq])) hc0 (by simpa using hi)]
      congr 1
      cases i with
      | zero => simp [prevBlock, blockAt, hc0]
      | succ i => rw [prevBlock, prevBlock, blockAt_append _ _ _ hc0]

theorem xor_twice (a b : List U8) (h : a.length = b.length) : Spec.xorBytes (Spec.xorBytes a b) b = a := by
  apply List.ext_getElem
  · simp [Spec.xorBytes, h]
  · intro i _ _
    simp only [Spec.xorBytes, List.getElem_zipWith]
    rw [BitVec.xor_assoc, BitVec.xor_self, BitVec.xor_zero]

theorem xor_zeros (a : List U8) (h : a.length = 16) : Spec.xorBytes a (List.replicate 16 0) = a := by
  apply List.ext_getElem
  · simp [Spec.xorBytes, h]
  · intro i _ _
    simp only [Spec.xorBytes, List.getElem_zipWith, List.getElem_replicate]
    exact BitVec.xor_zero

theorem blockAt_take (s : List U8) (n i : Nat) (h : 16 * (i + 1) ≤ n) : blockAt (s.take n) i = blockAt s i := by
  rw [blockAt, blockAt, List.drop_take, List.take_take, show min 16 (n - 16 * i) = 16 by omega]

theorem prevBlock_take (iv s : List U8) (n i : Nat) (h : 16 * (i + 1) ≤ n) : prevBlock iv (s.take n) i = prevBlock iv s i := by
  cases i with
  | zero => rfl
  | succ i => exact blockAt_take s n i (by omega)

theorem blockAt_decrypt (key iv s : List U8) (i : Nat) (hiv : iv.length = 16) (hi : 16 * (i + 1) ≤ s.length) :
    blockAt (decrypt key iv s) i = Spec.xorBytes (Spec.Aes.decrypt key (blockAt s i)) (prevBlock iv s i) := by
  have := blockAt_decrypt_blocks key (blocks s) iv i (mem_blocks s) hiv (by rw [blocks_length]; omega)
  rwa [flatten_blocks, blockAt_take _ _ _ (by rw [padCut]; omega), prevBlock_take _ _ _ _ (by rw [padCut]; omega)] at this

theorem length_blockAt (s : List U8) (i : Nat) (hi : 16 * (i + 1) ≤ s.length) : (blockAt s i).length = 16 := by
  rw [blockAt, List.length_take, List.length_drop]; omega

theorem length_prevBlock (iv s : List U8) (i : Nat) (hiv : iv.length = 16) (hi : 16 * (i + 1) ≤ s.length) : (prevBlock iv s i).length = 16 := by
  cases i with
  | zero => exact hiv
  | succ i => exact length_blockAt s i (by omega)

/-- C108: a ciphertext decrypted in any pieces. For two of the blocks that come out before `flush`, the xor of the plaintext blocks is the xor of the blocks
before them in the ciphertext, where the iv is the block before the first, exactly if the two ciphertext blocks are equal. -/
theorem C108_blocks (T : Target) (iv : Vector U8 16) (key : List U8) (hk : key.length = 16 ∨ key.length = 24 ∨ key.length = 32)
    (chunks : List (List U8)) :
    ∃ (d : Decipher) (rs : List (List U8)) (r : Except DecipherError (List U8)),
      drun T (Decipher.new iv) (.init key :: (chunks.map .write ++ [.flush])) = .ok (d, .ok [] :: (rs.map .ok ++ [r])) ∧
      rs.flatten.length = 16 * (chunks.flatten.length / 16 - 1) ∧
      ∀ i j, 16 * i < rs.flatten.length → 16 * j < rs.flatten.length →
        (blockAt chunks.flatten i = blockAt chunks.flatten j ↔
          Spec.xorBytes (blockAt rs.flatten i) (blockAt rs.flatten j) =
            Spec.xorBytes (prevBlock iv.toList chunks.flatten i) (prevBlock iv.toList chunks.flatten j)) := by
  obtain ⟨d, rs, r, h1, h0, h2, _⟩ := decipher_session T iv key hk chunks
  have h3 := h2 rs.length _ rfl
  rw [List.take_length, h0, List.take_length] at h3
  have hl := decrypt_length key iv.toList chunks.flatten (by simp)
  have hlen : rs.flatten.length = 16 * (chunks.flatten.length / 16 - 1) := by
    rw [h3, List.length_take]; omega
  refine ⟨d, rs, r, h1, hlen, fun i j hi hj => ?_⟩
  have hi' : 16 * (i + 1) ≤ chunks.flatten.length := by omega
  have hj' : 16 * (j + 1) ≤ chunks.flatten.length := by omega
  rw [h3, blockAt_take _ _ _ (by omega), blockAt_take _ _ _ (by omega), blockAt_decrypt _ _ _ _ (by simp) hi', blockAt_decrypt _ _ _ _ (by simp) hj']
  have l1 := length_blockAt chunks.flatten i hi'
  have l2 := length_blockAt chunks.flatten j hj'
  have l3 := length_prevBlock iv.toList chunks.flatten i (by simp) hi'
  have l4 := length_prevBlock iv.toList chunks.flatten j (by simp) hj'
  generalize blockAt chunks.flatten i = c at *
  generalize blockAt chunks.flatten j = c' at *
  generalize prevBlock iv.toList chunks.flatten i = p at *
  generalize prevBlock iv.toList chunks.flatten j = p' at *
  have m1 := aes_decrypt_length key c
  have m2 := aes_decrypt_length key c'
  rw [xor_cross _ _ _ _ (xor_length _ _ m1 l3) (xor_length _ _ m2 l4) l3 l4, xor_twice _ _ (m1.trans l3.symm), xor_twice _ _ (m2.trans l4.symm)]
  constructor
  · intro h
    rw [h]
  · intro h
    have := congrArg (Spec.Aes.encrypt key) h
    rwa [aes_enc_dec _ _ l1, aes_enc_dec _ _ l2] at this

/-- C108: so an iv is no secret: whoever can have one ciphertext of their choice decrypted, without knowing anything, reads it from the answer. `B` is any continuation
by which the third block comes out. -/
theorem C108_reveals (T : Target) (iv : Vector U8 16) (key : List U8) (hk : key.length = 16 ∨ key.length = 24 ∨ key.length = 32)
    (c B : List U8) (hc : c.length = 16) (hB : 16 ≤ B.length) (chunks : List (List U8)) (h : chunks.flatten = c ++ List.replicate 16 0 ++ c ++ B) :
    ∃ (d : Decipher) (rs : List (List U8)) (r : Except DecipherError (List U8)),
      drun T (Decipher.new iv) (.init key :: (chunks.map .write ++ [.flush])) = .ok (d, .ok [] :: (rs.map .ok ++ [r])) ∧
      Spec.xorBytes (rs.flatten.take 16) ((rs.flatten.drop 32).take 16) = iv.toList := by
  obtain ⟨d, rs, r, h1, h2, h3⟩ := C108_blocks T iv key hk chunks
  refine ⟨d, rs, r, h1, ?_⟩
  have hl : chunks.flatten.length = 48 + B.length := by rw [h]; simp [hc]; omega
  have e0 : blockAt chunks.flatten 0 = c := by
    rw [h, blockAt, List.append_assoc, List.append_assoc]
    exact List.take_left' hc
  have e1 : blockAt chunks.flatten 1 = List.replicate 16 0 := by
    rw [h, List.append_assoc, List.append_assoc, blockAt_append _ _ 0 hc]
    exact List.take_left' (by simp)
  have e2 : blockAt chunks.flatten 2 = c := by
    rw [h, List.append_assoc, List.append_assoc, blockAt_append _ _ 1 hc, blockAt_append _ _ 0 (by simp)]
    exact List.take_left' hc
  have h4 := (h3 0 2 (by omega) (by omega)).1 (e0.trans e2.symm)
  rw [prevBlock, prevBlock, e1, xor_zeros _ (by simp)] at h4
  exact h4

/-- C108: and the key must not be the iv: a `Decipher` with the same 16 bytes for both gives away the key. -/
theorem C108_key (T : Target) (key : Vector U8 16) (c B : List U8) (hc : c.length = 16) (hB : 16 ≤ B.length) (chunks : List (List U8))
    (h : chunks.flatten = c ++ List.replicate 16 0 ++ c ++ B) :
    ∃ (d : Decipher) (rs : List (List U8)) (r : Except DecipherError (List U8)),
      drun T (Decipher.new key) (.init key.toList :: (chunks.map .write ++ [.flush])) = .ok (d, .ok [] :: (rs.map .ok ++ [r])) ∧
      Spec.xorBytes (rs.flatten.take 16) ((rs.flatten.drop 32).take 16) = key.toList :=
  C108_reveals T key key.toList (.inl (by simp)) c B hc hB chunks h

/-- Four blocks of zeros. -/
example (T : Target) (iv : Vector U8 16) (key : List U8) (hk : key.length = 32) :=
  And.intro (C108_blocks T iv key (.inr (.inr hk)) [List.replicate 64 0])
    (And.intro (C108_reveals T iv key (.inr (.inr hk)) (List.replicate 16 0) (List.replicate 16 0) (by simp) (by simp) [List.replicate 60 0, [0, 0, 0, 0]] (by simp))
      (C108_key T iv (List.replicate 16 0) (List.replicate 16 0) (by simp) (by simp) [List.replicate 64 0] (by simp)))

end Verif.Props.SecretIv
