import Verif.Model.AesCbc
import Verif.Proof.Pkcs7
import Verif.Proof.Scrypt
import Verif.Props.Aes
import Verif.Props.Pkcs7

/-! `aes_cbc.rs`: what `write` and `flush` do, on instances in use. -/

namespace Verif.AesCbc
open Verif Verif.Aes Verif.Pkcs7 Spec.Cbc
open Verif.Props.Aes (Holds)

/-! ### Blocks of a byte string -/

theorem blocks_length (s : List U8) : (blocks s).length = s.length / 16 := by simp [blocks]

theorem mem_blocks (s : List U8) (b : List U8) (h : b ∈ blocks s) : b.length = 16 := by
  simp only [blocks, List.mem_map, List.mem_range] at h
  obtain ⟨i, hi, rfl⟩ := h
  rw [List.length_take, List.length_drop]
  omega

theorem blocks_short (s : List U8) (h : s.length < 16) : blocks s = [] := by
  rw [blocks, Nat.div_eq_of_lt h]; rfl

theorem blocks_cons (b s : List U8) (hb : b.length = 16) : blocks (b ++ s) = b :: blocks s := by
  rw [blocks, blocks, List.length_append, hb, show (16 + s.length) / 16 = s.length / 16 + 1 by omega,
    List.range_succ_eq_map, List.map_cons, List.map_map, Nat.mul_zero, List.drop_zero, ← hb, List.take_left]
  congr 1
  apply List.map_congr_left
  intro i _
  rw [Function.comp_apply, Nat.mul_succ, Nat.add_comm, ← List.drop_drop, List.drop_left]

theorem blocks_flatten_append (L : List (List U8)) (h : ∀ b ∈ L, b.length = 16) (s : List U8) :
    blocks (L.flatten ++ s) = L ++ blocks s := by
  induction L with
  | nil => rfl
  | cons b L ih =>
    rw [List.flatten_cons, List.append_assoc, blocks_cons b _ (h b (by simp)), ih (fun c hc => h c (by simp [hc]))]
    rfl

theorem blocks_flatten (L : List (List U8)) (h : ∀ b ∈ L, b.length = 16) : blocks L.flatten = L := by
  have := blocks_flatten_append L h []
  rwa [List.append_nil, blocks_short [] (by simp), List.append_nil] at this

theorem flatten_blocks (s : List U8) : (blocks s).flatten = s.take (padCut 16 s.length) := by
  have hl : (s.take (padCut 16 s.length)).length = 16 * (s.length / 16) := by
    rw [List.length_take, padCut]; omega
  rw [← Scrypt.pieces_flatten (s.length / 16) 16 _ hl, blocks]
  congr 1
  apply List.map_congr_left
  intro i hi
  rw [List.mem_range] at hi
  rw [List.drop_take, List.take_take, padCut]
  congr 1
  omega

theorem blocks_split (s : List U8) : (blocks s).flatten ++ s.drop (padCut 16 s.length) = s := by
  rw [flatten_blocks, List.take_append_drop]

/-- Appending to a string only continues the blocks: the incomplete rest and the new bytes give the new blocks. -/
theorem blocks_append (s b : List U8) : blocks (s ++ b) = blocks s ++ blocks (s.drop (padCut 16 s.length) ++ b) := by
  conv => lhs; rw [← blocks_split s, List.append_assoc]
  exact blocks_flatten_append _ (mem_blocks s) _

theorem blocks_take_cut (s : List U8) : blocks (s.take (padCut 16 s.length)) = blocks s := by
  rw [← flatten_blocks, blocks_flatten _ (mem_blocks s)]

theorem chunks_ok (s : List U8) : chunks (s.take (padCut 16 s.length)) BLOCK_SIZE = .ok (blocks s) := by
  have hl : (s.take (padCut 16 s.length)).length = 16 * (s.length / 16) := by
    rw [List.length_take, padCut]; omega
  rw [chunks, if_neg (by decide), Scrypt.chunksAux_eq, ← blocks_take_cut s, blocks, hl,
    show (16 * (s.length / 16) + BLOCK_SIZE - 1) / BLOCK_SIZE = 16 * (s.length / 16) / 16 by
      simp only [BLOCK_SIZE]; omega]

/-! ### CBC on lists of blocks -/

theorem encBlocks_append (E : List U8 → List U8) (iv : List U8) (p q : List (List U8)) :
    encBlocks E iv (p ++ q) = encBlocks E iv p ++ encBlocks E ((encBlocks E iv p).getLastD iv) q := by
  induction p generalizing iv with
  | nil => rfl
  | cons b p ih =>
    rw [List.cons_append, encBlocks, encBlocks, ih, List.cons_append, List.getLastD_cons]

theorem decBlocks_append (D : List U8 → List U8) (iv : List U8) (p q : List (List U8)) :
    decBlocks D iv (p ++ q) = decBlocks D iv p ++ decBlocks D (p.getLastD iv) q := by
  induction p generalizing iv with
  | nil => rfl
  | cons b p ih =>
    rw [List.cons_append, decBlocks, decBlocks, ih, List.cons_append, List.getLastD_cons]

theorem getLastD_append (p q : List (List U8)) (iv : List U8) : (p ++ q).getLastD iv = q.getLastD (p.getLastD iv) := by
  induction p generalizing iv with
  | nil => rfl
  | cons b p ih => rw [List.cons_append, List.getLastD_cons, List.getLastD_cons, ih]

theorem encBlocks_length (E : List U8 → List U8) (iv : List U8) (p : List (List U8)) :
    (encBlocks E iv p).length = p.length := by
  induction p generalizing iv with
  | nil => rfl
  | cons b p ih => rw [encBlocks, List.length_cons, ih, List.length_cons]

theorem decBlocks_length (D : List U8 → List U8) (iv : List U8) (p : List (List U8)) :
    (decBlocks D iv p).length = p.length := by
  induction p generalizing iv with
  | nil => rfl
  | cons b p ih => rw [decBlocks, List.length_cons, ih, List.length_cons]

theorem aes_encrypt_length (key b : List U8) : (Spec.Aes.encrypt key b).length = 16 := by
  simp [Spec.Aes.encrypt, Spec.Aes.cipher, Spec.Aes.store]

theorem aes_decrypt_length (key b : List U8) : (Spec.Aes.decrypt key b).length = 16 := by
  simp [Spec.Aes.decrypt, Spec.Aes.invCipher, Spec.Aes.store]

theorem mem_encBlocks (key iv : List U8) (p : List (List U8)) (b : List U8)
    (h : b ∈ encBlocks (Spec.Aes.encrypt key) iv p) : b.length = 16 := by
  induction p generalizing iv with
  | nil => cases h
  | cons a p ih =>
    rw [encBlocks] at h
    rcases List.mem_cons.1 h with h | h
    · rw [h, aes_encrypt_length]
    · exact ih _ h

theorem mem_decBlocks (key iv : List U8) (hiv : iv.length = 16) (p : List (List U8)) (hp : ∀ c ∈ p, c.length = 16)
    (b : List U8) (h : b ∈ decBlocks (Spec.Aes.decrypt key) iv p) : b.length = 16 := by
  induction p generalizing iv with
  | nil => cases h
  | cons a p ih =>
    rw [decBlocks] at h
    rcases List.mem_cons.1 h with h | h
    · rw [h, Spec.xorBytes, List.length_zipWith, aes_decrypt_length, hiv]; rfl
    · exact ih _ (hp a (by simp)) (fun c hc => hp c (by simp [hc])) h

/-! ### Single blocks -/

theorem arrayFromSlice_ok (b : List U8) (h : b.length = 16) :
    ∃ v : Vector U8 16, arrayFromSlice BLOCK_SIZE b = .ok v ∧ v.toList = b := by
  refine ⟨⟨b.toArray, by simpa using h⟩, ?_, by simp⟩
  rw [arrayFromSlice, dif_pos (show b.length = BLOCK_SIZE from h)]

theorem xorBlock_toList (a b : Vector U8 16) : (xorBlock a b).toList = Spec.xorBytes a.toList b.toList := by
  apply List.ext_getElem
  · simp [Spec.xorBytes]
  · intro i h1 h2
    simp [xorBlock, Spec.xorBytes]

theorem encrypt_block_ok (c : Cipher) (key : List U8) (h : Holds c.aes key) (b : List U8) (hb : b.length = 16) :
    ∃ iv : Vector U8 16, c.encrypt_block b = .ok ({ c with iv := iv }, .ok iv.toList) ∧
      iv.toList = Spec.Aes.encrypt key (Spec.xorBytes b c.iv.toList) := by
  obtain ⟨v, h1, h2⟩ := arrayFromSlice_ok b hb
  obtain ⟨o, h3, h4⟩ := h.encrypt (xorBlock v c.iv)
  refine ⟨o, ?_, ?_⟩
  · unfold Cipher.encrypt_block
    rw [h1]
    simp only [ok_bind]
    rw [h3]
    rfl
  · rw [h4, xorBlock_toList, h2]

theorem enc_writeLoop_ok (key : List U8) (bs : List (List U8)) (hb : ∀ b ∈ bs, b.length = 16) (c : Cipher)
    (h : Holds c.aes key) (acc : List U8) :
    ∃ iv : Vector U8 16, Cipher.writeLoop bs c acc
        = .ok ({ c with iv := iv }, .ok (acc ++ (encBlocks (Spec.Aes.encrypt key) c.iv.toList bs).flatten)) ∧
      iv.toList = (encBlocks (Spec.Aes.encrypt key) c.iv.toList bs).getLastD c.iv.toList := by
  induction bs generalizing c acc with
  | nil => exact ⟨c.iv, by simp [Cipher.writeLoop, encBlocks], rfl⟩
  | cons b bs ih =>
    obtain ⟨iv, h1, h2⟩ := encrypt_block_ok c key h b (hb b (by simp))
    obtain ⟨iv', h3, h4⟩ := ih (fun x hx => hb x (by simp [hx])) { c with iv := iv } h (acc ++ iv.toList)
    refine ⟨iv', ?_, ?_⟩
    · rw [Cipher.writeLoop, h1]
      simp only [ok_bind]
      rw [h3]
      simp only [encBlocks, ← h2, List.flatten_cons, List.append_assoc]
    · rw [h4]
      simp only [encBlocks, ← h2, List.getLastD_cons]

theorem dec_writeLoop_ok (key : List U8) (bs : List (List U8)) (hb : ∀ b ∈ bs, b.length = 16) (d : Decipher)
    (h : Holds d.aes key) (acc : List U8) :
    ∃ iv : Vector U8 16, Decipher.writeLoop bs d acc
        = .ok ({ d with iv := iv }, .ok (acc ++ (decBlocks (Spec.Aes.decrypt key) d.iv.toList bs).flatten)) ∧
      iv.toList = bs.getLastD d.iv.toList := by
  induction bs generalizing d acc with
  | nil => exact ⟨d.iv, by simp [Decipher.writeLoop, decBlocks], rfl⟩
  | cons b bs ih =>
    obtain ⟨v, h1, h2⟩ := arrayFromSlice_ok b (hb b (by simp))
    obtain ⟨o, h3, h4⟩ := h.decrypt v
    obtain ⟨iv', h5, h6⟩ := ih (fun x hx => hb x (by simp [hx])) { d with iv := v } h (acc ++ (xorBlock o d.iv).toList)
    refine ⟨iv', ?_, ?_⟩
    · rw [Decipher.writeLoop, h1]
      simp only [ok_bind]
      rw [h3]
      simp only [ok_bind]
      rw [h5]
      simp only [decBlocks, xorBlock_toList, h4, h2, List.flatten_cons, List.append_assoc]
    · rw [h6]
      simp only [h2, List.getLastD_cons]

/-! ### `write` and `flush` of a `Cipher` -/

/-- `write` on a `Cipher` holding a key: the buffered and the new bytes are encrypted as far as they form complete blocks. -/
theorem cipher_write_ok (T : Target) (c : Cipher) (key s : List U8) (h : Holds c.aes key) (hp : c.pad = ⟨16, s⟩)
    (b : List U8) :
    ∃ iv : Vector U8 16, c.write T b = .ok (⟨c.aes, ⟨16, (s ++ b).drop (padCut 16 (s ++ b).length)⟩, iv⟩,
        .ok (encBlocks (Spec.Aes.encrypt key) c.iv.toList (blocks (s ++ b))).flatten) ∧
      iv.toList = (encBlocks (Spec.Aes.encrypt key) c.iv.toList (blocks (s ++ b))).getLastD c.iv.toList := by
  obtain ⟨o, h1, h2, h3⟩ := pad_write T 16 (by decide) s b
  unfold Cipher.write
  rw [hp, h1]
  simp only [ok_bind]
  cases o with
  | none =>
    have hs := h3.1 rfl
    rw [blocks_short _ hs]
    exact ⟨c.iv, rfl, rfl⟩
  | some head =>
    have e : head = (s ++ b).take (padCut 16 (s ++ b).length) := h2
    simp only []
    rw [e, chunks_ok]
    simp only [ok_bind]
    obtain ⟨iv, h4, h5⟩ := enc_writeLoop_ok key (blocks (s ++ b)) (mem_blocks _)
      { c with pad := ⟨16, (s ++ b).drop (padCut 16 (s ++ b).length)⟩ } h []
    exact ⟨iv, h4, h5⟩

theorem cipher_flush_ok (T : Target) (c : Cipher) (key s : List U8) (h : Holds c.aes key) (hp : c.pad = ⟨16, s⟩)
    (hs : s.length < 16) :
    ∃ iv : Vector U8 16, c.flush T = .ok (⟨c.aes, ⟨16, []⟩, iv⟩, .ok iv.toList) ∧
      iv.toList = Spec.Aes.encrypt key (Spec.xorBytes (pkcs7 16 s) c.iv.toList) := by
  have e : s ++ List.replicate (16 - s.length) (BitVec.ofNat 8 (16 - s.length)) = pkcs7 16 s := by
    rw [pkcs7, Nat.mod_eq_of_lt hs]
  unfold Cipher.flush
  rw [hp, pad_flush _ _ _ (by omega), e]
  simp only [ok_bind]
  obtain ⟨iv, h1, h2⟩ := encrypt_block_ok { c with pad := ⟨16, []⟩ } key h (pkcs7 16 s) (by
    rw [← e, List.length_append, List.length_replicate]; omega)
  exact ⟨iv, h1, h2⟩

/-! ### `write` of a `Decipher` -/

theorem unpadCut_small (n : Nat) (h : n ≤ 16) : unpadCut 16 n = 0 := by
  rw [unpadCut]; omega

theorem decipher_write_ok (T : Target) (d : Decipher) (key s hold : List U8) (h : Holds d.aes key)
    (hb : d.buffer = ⟨16, s⟩) (hu : d.unpad = ⟨16, hold⟩) (hl : hold.length ≤ 16) (b : List U8) :
    ∃ iv : Vector U8 16, d.write T b = .ok (⟨d.aes,
        ⟨16, (hold ++ (decBlocks (Spec.Aes.decrypt key) d.iv.toList (blocks (s ++ b))).flatten).drop
          (unpadCut 16 (hold ++ (decBlocks (Spec.Aes.decrypt key) d.iv.toList (blocks (s ++ b))).flatten).length)⟩, iv,
        ⟨16, (s ++ b).drop (padCut 16 (s ++ b).length)⟩⟩,
        .ok ((hold ++ (decBlocks (Spec.Aes.decrypt key) d.iv.toList (blocks (s ++ b))).flatten).take
          (unpadCut 16 (hold ++ (decBlocks (Spec.Aes.decrypt key) d.iv.toList (blocks (s ++ b))).flatten).length))) ∧
      iv.toList = (blocks (s ++ b)).getLastD d.iv.toList := by
  obtain ⟨o, h1, h2, h3⟩ := pad_write T 16 (by decide) s b
  unfold Decipher.write
  rw [hb, h1]
  simp only [ok_bind]
  cases o with
  | none =>
    have hs := h3.1 rfl
    refine ⟨d.iv, ?_, ?_⟩
    · rw [blocks_short _ hs]
      simp only [decBlocks, List.flatten_nil, List.append_nil]
      rw [unpadCut_small _ hl, List.take_zero, List.drop_zero, hu]
      rfl
    · rw [blocks_short _ hs]; rfl
  | some head =>
    have e : head = (s ++ b).take (padCut 16 (s ++ b).length) := h2
    simp only []
    rw [e, chunks_ok]
    simp only [ok_bind]
    obtain ⟨iv, h4, h5⟩ := dec_writeLoop_ok key (blocks (s ++ b)) (mem_blocks _)
      { d with buffer := ⟨16, (s ++ b).drop (padCut 16 (s ++ b).length)⟩ } h []
    rw [h4]
    simp only [ok_bind, List.nil_append]
    obtain ⟨o, h6, h7⟩ := unpad_write T 16 (by decide) hold
      (decBlocks (Spec.Aes.decrypt key) d.iv.toList (blocks (s ++ b))).flatten
    rw [hu, h6]
    refine ⟨iv, ?_, h5⟩
    simp only [ok_bind, pure_eq_ok]
    rw [h7]

end Verif.AesCbc
