import Verif.Props.CbcSpread
import Verif.Spec.CbcMac

/-! Property C123: the last block of a ciphertext is no check value for the message. -/

namespace Verif.Props.CbcMac
open Verif Verif.Aes Verif.Pkcs7 Verif.AesCbc Spec.Cbc
open Verif.Props.Cbc (cipher_session xor_injective C30_roundtrip)
open Verif.Props.CbcMisuse

theorem moved_length (iv iv' m : List U8) (hiv : iv.length = 16) (hiv' : iv'.length = 16) (hm : 16 ≤ m.length) :
    (moved iv iv' m).length = m.length := by
  rw [moved, List.length_append, xor_length _ _ (xor_length _ _ (by rw [List.length_take]; omega) hiv) hiv', List.length_drop]
  omega

theorem pkcs7_after (a m : List U8) (h : a.length % 16 = 0) : pkcs7 16 (a ++ m) = a ++ pkcs7 16 m := by
  rw [pkcs7, pkcs7, List.length_append, show (a.length + m.length) % 16 = m.length % 16 by omega, List.append_assoc]

theorem encrypt_cons (key iv b s : List U8) (hb : b.length = 16) :
    encrypt key iv (b ++ s) = Spec.Aes.encrypt key (Spec.xorBytes b iv) ++ encrypt key (Spec.Aes.encrypt key (Spec.xorBytes b iv)) s := by
  rw [encrypt, blocks_cons _ _ hb, encBlocks, List.flatten_cons, encrypt]

theorem encrypt_moved (key iv iv' m : List U8) (hiv : iv.length = 16) (hiv' : iv'.length = 16) (hm : 16 ≤ m.length) :
    encrypt key iv' (pkcs7 16 (moved iv iv' m)) = encrypt key iv (pkcs7 16 m) := by
  have hb : (m.take 16).length = 16 := by rw [List.length_take]; omega
  have h1 := xor_length _ _ hb hiv
  have h2 := xor_length _ _ h1 hiv'
  conv => rhs; rw [← List.take_append_drop 16 m]
  rw [moved, pkcs7_after _ _ (by omega), pkcs7_after _ _ (by omega), encrypt_cons _ _ _ _ h2, encrypt_cons _ _ _ _ hb,
    xor_xor _ _ (by omega)]

theorem encrypt_joined (key iv m₁ m₂ t : List U8) (hiv : iv.length = 16) (ht : t.length = 16) (hm : 16 ≤ m₂.length)
    (h : t = lastBlock iv (encrypt key iv (pkcs7 16 m₁))) :
    encrypt key iv (pkcs7 16 (joined iv t m₁ m₂)) = encrypt key iv (pkcs7 16 m₁) ++ encrypt key iv (pkcs7 16 m₂) := by
  have hp : (pkcs7 16 m₁).length % 16 = 0 := by rw [pkcs7_length]; omega
  rw [joined, pkcs7_after _ _ hp, encrypt_append _ _ _ _ hp, ← h, encrypt_moved _ _ _ _ hiv ht hm]

theorem lastBlock_append (iv a t : List U8) (ha : a.length % 16 = 0) (ht : t.length = 16) : lastBlock iv (a ++ t) = t := by
  have := blocks_cons t [] ht
  rw [List.append_nil, blocks_short [] (by simp)] at this
  rw [lastBlock, blocks_append, drop_whole _ ha, List.nil_append, this, getLastD_append]
  rfl

theorem moved_ne (iv iv' m : List U8) (hiv : iv.length = 16) (hiv' : iv'.length = 16) (hm : 16 ≤ m.length) (h : iv ≠ iv') :
    moved iv iv' m ≠ m := by
  intro e
  have hb : (m.take 16).length = 16 := by rw [List.length_take]; omega
  have h2 := xor_length _ _ (xor_length _ _ hb hiv) hiv'
  have e := congrArg (List.take 16) e
  rw [moved, List.take_left' h2] at e
  have := xor_xor (Spec.xorBytes (m.take 16) iv) iv' ((xor_length _ _ hb hiv).trans hiv'.symm)
  rw [e] at this
  exact h (xor_injective _ _ _ (hiv.trans hb.symm) (hiv'.trans hb.symm) this.symm)

theorem append_same {a b c d : List U8} (h : a ++ b = c ++ d) (hl : b.length = d.length) : a = c ∧ b = d :=
  List.append_inj' h hl

/-- **C123, another iv.** Whoever can choose the iv gets the whole ciphertext of a message, and so its last block, for another
message of the same length, too: with the iv `iv'`, the message whose first block has both ivs added to it. -/
theorem C123_iv (T : Target) (iv iv' : Vector U8 16) (key : List U8) (hk : key.length = 16 ∨ key.length = 24 ∨ key.length = 32)
    (chunks chunks' : List (List U8)) (hm : 16 ≤ chunks.flatten.length)
    (hm' : chunks'.flatten = moved iv.toList iv'.toList chunks.flatten) :
    ∃ (c c' : Cipher) (rs rs' : List (List U8)) (last : List U8),
      crun T (Cipher.new iv) (.init key :: (chunks.map .write ++ [.flush])) = .ok (c, .ok [] :: (rs.map .ok ++ [.ok last])) ∧
      crun T (Cipher.new iv') (.init key :: (chunks'.map .write ++ [.flush])) = .ok (c', .ok [] :: (rs'.map .ok ++ [.ok last])) ∧
      rs'.flatten = rs.flatten ∧ last.length = 16 ∧
      chunks'.flatten.length = chunks.flatten.length ∧ (iv ≠ iv' → chunks'.flatten ≠ chunks.flatten) := by
  obtain ⟨c, rs, last, h1, _, h2, _, h3⟩ := cipher_session T iv key hk chunks
  obtain ⟨c', rs', last', h1', _, h2', _, h3'⟩ := cipher_session T iv' key hk chunks'
  rw [hm', encrypt_moved _ _ _ _ (by simp) (by simp) hm, ← h3] at h3'
  obtain ⟨h4, rfl⟩ := append_same h3' (by omega)
  refine ⟨c, c', rs, rs', last', h1, h1', h4, h2, ?_, fun h => ?_⟩
  · rw [hm', moved_length _ _ _ (by simp) (by simp) hm]
  · rw [hm']
    exact moved_ne _ _ _ (by simp) (by simp) hm fun e => h (Vector.toList_inj.1 e)

/-- A message of 18 bytes and two ivs. -/
example (T : Target) :
    ∃ (c c' : Cipher) (rs rs' : List (List U8)) (last : List U8),
      crun T (Cipher.new (Vector.replicate 16 0)) (.init (List.replicate 16 7) :: ([List.replicate 18 2].map .write ++ [.flush]))
        = .ok (c, .ok [] :: (rs.map .ok ++ [.ok last])) ∧
      crun T (Cipher.new (Vector.replicate 16 1)) (.init (List.replicate 16 7) :: ([List.replicate 16 3, [2, 2]].map .write ++ [.flush]))
        = .ok (c', .ok [] :: (rs'.map .ok ++ [.ok last])) ∧
      rs'.flatten = rs.flatten :=
  have ⟨c, c', rs, rs', last, h1, h2, h3, _⟩ := C123_iv T (Vector.replicate 16 0) (Vector.replicate 16 1) (List.replicate 16 7) (.inl rfl)
    [List.replicate 18 2] [List.replicate 16 3, [2, 2]] (by decide) (by decide)
  ⟨c, c', rs, rs', last, h1, h2, h3⟩

/-- **C123, one iv.** Two messages are encrypted with one key and one iv. Who knows both messages and the last block of the first
ciphertext, but not the key, can name a third message, other than these two, whose ciphertext is the two ciphertexts put together.
So its last block is the last block of the second ciphertext. And a `Decipher` takes the ciphertexts that are put together for the
third message. -/
theorem C123_join (T : Target) (iv : Vector U8 16) (key : List U8) (hk : key.length = 16 ∨ key.length = 24 ∨ key.length = 32)
    (chunks chunks' : List (List U8)) (hm : 16 ≤ chunks'.flatten.length) :
    ∃ (c c' : Cipher) (rs rs' : List (List U8)) (last last' : List U8),
      crun T (Cipher.new iv) (.init key :: (chunks.map .write ++ [.flush])) = .ok (c, .ok [] :: (rs.map .ok ++ [.ok last])) ∧
      crun T (Cipher.new iv) (.init key :: (chunks'.map .write ++ [.flush])) = .ok (c', .ok [] :: (rs'.map .ok ++ [.ok last'])) ∧
      (∀ pieces : List (List U8), pieces.flatten = joined iv.toList last chunks.flatten chunks'.flatten →
        pieces.flatten ≠ chunks.flatten ∧ pieces.flatten ≠ chunks'.flatten ∧
        ∃ (c'' : Cipher) (rs'' : List (List U8)),
          crun T (Cipher.new iv) (.init key :: (pieces.map .write ++ [.flush])) = .ok (c'', .ok [] :: (rs''.map .ok ++ [.ok last'])) ∧
          rs''.flatten ++ last' = (rs.flatten ++ last) ++ (rs'.flatten ++ last')) ∧
      ∀ pieces : List (List U8), pieces.flatten = (rs.flatten ++ last) ++ (rs'.flatten ++ last') →
        ∃ (d : Decipher) (ps : List (List U8)) (p : List U8),
          drun T (Decipher.new iv) (.init key :: (pieces.map .write ++ [.flush])) = .ok (d, .ok [] :: (ps.map .ok ++ [.ok p])) ∧
          ps.flatten ++ p = joined iv.toList last chunks.flatten chunks'.flatten := by
  obtain ⟨c, rs, last, h1, _, h2, _, h3⟩ := cipher_session T iv key hk chunks
  obtain ⟨c', rs', last', h1', _, h2', _, h3'⟩ := cipher_session T iv key hk chunks'
  have hl := encrypt_length key iv.toList (pkcs7 16 chunks.flatten)
  have ht : last = lastBlock iv.toList (encrypt key iv.toList (pkcs7 16 chunks.flatten)) := by
    rw [← h3, lastBlock_append _ _ _ _ h2]
    rw [← h3, List.length_append] at hl
    omega
  have hj := encrypt_joined key iv.toList chunks.flatten chunks'.flatten last (by simp) h2 hm ht
  have hlen : (joined iv.toList last chunks.flatten chunks'.flatten).length = (pkcs7 16 chunks.flatten).length + chunks'.flatten.length := by
    rw [joined, List.length_append, moved_length _ _ _ (by simp) h2 hm]
  rw [pkcs7_length] at hlen
  refine ⟨c, c', rs, rs', last, last', h1, h1', fun pieces hp => ⟨?_, ?_, ?_⟩, fun pieces hp => ?_⟩
  · intro e
    rw [← hp, e] at hlen
    omega
  · intro e
    rw [← hp, e] at hlen
    omega
  · obtain ⟨c'', rs'', last'', h4, _, h5, _, h6⟩ := cipher_session T iv key hk pieces
    rw [hp, hj, ← h3, ← h3', ← List.append_assoc] at h6
    obtain ⟨h7, rfl⟩ := append_same h6 (by omega)
    exact ⟨c'', rs'', h4, by rw [h6, List.append_assoc]⟩
  · obtain ⟨c'', rs'', last'', h4, h5⟩ := C30_roundtrip T iv key hk [joined iv.toList last chunks.flatten chunks'.flatten]
    obtain ⟨c₃, rs₃, last₃, h6, _, _, _, h7⟩ := cipher_session T iv key hk [joined iv.toList last chunks.flatten chunks'.flatten]
    have e := h4.symm.trans h6
    simp only [Except.ok.injEq, Prod.mk.injEq, List.cons.injEq, true_and] at e
    obtain ⟨e1, e2⟩ := e
    have e3 := List.append_inj' e2 rfl
    have e4 : rs'' = rs₃ := (List.map_inj_right fun a b h => by cases h; rfl).1 e3.1
    have e5 : last'' = last₃ := by have := e3.2; simpa using this
    subst e4 e5
    simp only [List.flatten_cons, List.flatten_nil, List.append_nil] at h7 h5
    obtain ⟨d, ps, p, h8, h9⟩ := h5 pieces (by rw [hp, h7, hj, h3, h3'])
    exact ⟨d, ps, p, h8, h9⟩

/-- A short message, and one of 20 bytes in two pieces. -/
example (T : Target) (iv : Vector U8 16) :=
  C123_join T iv (List.replicate 32 7) (.inr (.inr rfl)) [[1, 2, 3]] [List.replicate 15 4, List.replicate 5 6] (by decide)

end Verif.Props.CbcMac
