import Verif.Props.CbcMisuse

/-! C107: a change in a message, or another iv, is seen in all of the ciphertext that follows. -/

namespace Verif.Props.CbcSpread
open Verif Verif.Aes Verif.Pkcs7 Verif.AesCbc Spec.Cbc
open Verif.Props.Cbc (cipher_session xor_injective)
open Verif.Props.CbcMisuse

/-- Equal ciphertext blocks come from equal inputs to AES. -/
theorem same_block (key iv iv' s s' : List U8) (i : Nat) (hiv : iv.length = 16)
    (hiv' : iv'.length = 16) (hs : s.length % 16 = 0) (hs' : s'.length % 16 = 0) (hi : 16 * i < s.length) (hi' : 16 * i < s'.length) :
    blockAt (encrypt key iv s) i = blockAt (encrypt key iv' s') i ↔
      Spec.xorBytes (blockAt s i) (prevBlock iv (encrypt key iv s) i) = Spec.xorBytes (blockAt s' i) (prevBlock iv' (encrypt key iv' s') i) := by
  have hl := encrypt_length key iv s
  have hl' := encrypt_length key iv' s'
  rw [blockAt_encrypt _ _ _ _ hs hi, blockAt_encrypt _ _ _ _ hs' hi']
  have l1 := blockAt_length s i hs hi
  have l2 := blockAt_length s' i hs' hi'
  have l3 := prevBlock_length iv (encrypt key iv s) i hiv (by omega) (by omega)
  have l4 := prevBlock_length iv' (encrypt key iv' s') i hiv' (by omega) (by omega)
  constructor
  · intro h
    have := congrArg (Spec.Aes.decrypt key) h
    rwa [aes_dec_enc _ _ (xor_length _ _ l1 l3), aes_dec_enc _ _ (xor_length _ _ l2 l4)] at this
  · intro h
    rw [h]

/-- Where the messages agree, nothing changes from one block to the next. -/
theorem next_block (key iv iv' s s' : List U8) (i : Nat) (hiv : iv.length = 16) (hiv' : iv'.length = 16) (hs : s.length % 16 = 0) (hs' : s'.length % 16 = 0)
    (hi : 16 * i < s.length) (hi' : 16 * i < s'.length) (h : blockAt s i = blockAt s' i) :
    blockAt (encrypt key iv s) i = blockAt (encrypt key iv' s') i ↔
      prevBlock iv (encrypt key iv s) i = prevBlock iv' (encrypt key iv' s') i := by
  have hl := encrypt_length key iv s
  have hl' := encrypt_length key iv' s'
  have l1 := blockAt_length s i hs hi
  have l3 := prevBlock_length iv (encrypt key iv s) i hiv (by omega) (by omega)
  have l4 := prevBlock_length iv' (encrypt key iv' s') i hiv' (by omega) (by omega)
  rw [same_block key iv iv' s s' i hiv hiv' hs hs' hi hi', ← h]
  exact ⟨xor_injective _ _ _ (l3.trans l1.symm) (l4.trans l1.symm), fun h => by rw [h]⟩

theorem settled (key iv iv' s s' : List U8) (hiv : iv.length = 16) (hiv' : iv'.length = 16) (hs : s.length % 16 = 0) (hs' : s'.length % 16 = 0)
    (i j : Nat) (hij : i ≤ j) (hj : 16 * j < s.length) (hj' : 16 * j < s'.length) (h : ∀ l, i < l → l ≤ j → blockAt s l = blockAt s' l) :
    blockAt (encrypt key iv s) i = blockAt (encrypt key iv' s') i ↔ blockAt (encrypt key iv s) j = blockAt (encrypt key iv' s') j := by
  induction hij with
  | refl => rfl
  | @step j hij ih =>
    have hij : i ≤ j := hij
    rw [ih (by omega) (by omega) (fun l h1 h2 => h l h1 (by omega)),
      next_block key iv iv' s s' (j + 1) hiv hiv' hs hs' hj hj' (h _ (by omega) (Nat.le_refl _)), prevBlock, prevBlock]

theorem xor_comm (a b : List U8) : Spec.xorBytes a b = Spec.xorBytes b a := by
  rw [Spec.xorBytes, Spec.xorBytes, List.zipWith_comm]
  simp only [BitVec.xor_comm]

theorem blockAt_other (A x y R : List U8) (hxy : x.length = y.length) (hx : A.length % 16 + x.length ≤ 16) (i : Nat) (hi : i ≠ A.length / 16) :
    blockAt (A ++ x ++ R) i = blockAt (A ++ y ++ R) i := by
  rw [blockAt, blockAt]
  rcases Nat.lt_or_gt_of_ne hi with h | h
  · rw [List.append_assoc, List.append_assoc, List.drop_append_of_le_length (by omega), List.drop_append_of_le_length (by omega),
      List.take_append_of_le_length (by rw [List.length_drop]; omega), List.take_append_of_le_length (by rw [List.length_drop]; omega)]
  · have h1 : (A ++ x).length ≤ 16 * i := by rw [List.length_append]; omega
    have h2 : (A ++ y).length ≤ 16 * i := by rw [List.length_append]; omega
    rw [List.drop_append (l₁ := A ++ x), List.drop_append (l₁ := A ++ y), List.drop_of_length_le h1, List.drop_of_length_le h2, List.length_append,
      List.length_append, hxy]

theorem blockAt_changed (A x y R : List U8) (hxy : x.length = y.length) (hx : A.length % 16 + x.length ≤ 16)
    (h : blockAt (A ++ x ++ R) (A.length / 16) = blockAt (A ++ y ++ R) (A.length / 16)) : x = y := by
  rw [blockAt, blockAt, List.append_assoc, List.append_assoc, List.drop_append_of_le_length (by omega), List.drop_append_of_le_length (by omega)] at h
  have hd : (A.drop (16 * (A.length / 16))).length = A.length % 16 := by rw [List.length_drop]; omega
  have h1 := congrArg (fun l => (l.drop (A.length % 16)).take x.length) h
  rw [List.drop_take, List.drop_take, List.take_take, List.take_take, ← hd, List.drop_left, List.drop_left, hd,
    show min x.length (16 - A.length % 16) = x.length by omega, List.take_left] at h1
  rw [hxy, List.take_left] at h1
  exact h1

/-- C107: two messages encrypted with the same key and any ivs, in any pieces. Where the padded messages agree from block `i + 1` to block `j`, the
ciphertexts agree in block `j` exactly if they agree in block `i`: a difference does not go away, and without a new one none appears. -/
theorem C107_stays (T : Target) (iv iv' : Vector U8 16) (key : List U8) (hk : key.length = 16 ∨ key.length = 24 ∨ key.length = 32)
    (chunks chunks' : List (List U8)) :
    ∃ (c c' : Cipher) (rs rs' : List (List U8)) (last last' : List U8),
      crun T (Cipher.new iv) (.init key :: (chunks.map .write ++ [.flush])) = .ok (c, .ok [] :: (rs.map .ok ++ [.ok last])) ∧
      crun T (Cipher.new iv') (.init key :: (chunks'.map .write ++ [.flush])) = .ok (c', .ok [] :: (rs'.map .ok ++ [.ok last'])) ∧
      ∀ i j, i ≤ j → 16 * j < (rs.flatten ++ last).length → 16 * j < (rs'.flatten ++ last').length →
        (∀ l, i < l → l ≤ j → blockAt (pkcs7 16 chunks.flatten) l = blockAt (pkcs7 16 chunks'.flatten) l) →
        (blockAt (rs.flatten ++ last) i = blockAt (rs'.flatten ++ last') i ↔ blockAt (rs.flatten ++ last) j = blockAt (rs'.flatten ++ last') j) := by
  obtain ⟨c, rs, last, h1, _, _, _, h2⟩ := cipher_session T iv key hk chunks
  obtain ⟨c', rs', last', h1', _, _, _, h2'⟩ := cipher_session T iv' key hk chunks'
  refine ⟨c, c', rs, rs', last, last', h1, h1', fun i j hij hj hj' h => ?_⟩
  have hp := pkcs7_length chunks.flatten
  have hp' := pkcs7_length chunks'.flatten
  rw [h2, encrypt_length] at hj
  rw [h2', encrypt_length] at hj'
  rw [h2, h2']
  exact settled key _ _ _ _ (by simp) (by simp) (by omega) (by omega) i j hij (by omega) (by omega) h

/-- C107: with the same key and iv, a message `A ++ x ++ B` and the same with `x`, inside one block of 16 bytes, replaced by another `y` of the same size (for example
one bit): the ciphertexts are of the same size, the blocks before that one are the same, and that one and all the blocks after it differ. -/
theorem C107_change (T : Target) (iv : Vector U8 16) (key : List U8) (hk : key.length = 16 ∨ key.length = 24 ∨ key.length = 32)
    (A x y B : List U8) (hxy : x ≠ y) (hl : x.length = y.length) (hx : A.length % 16 + x.length ≤ 16)
    (chunks chunks' : List (List U8)) (h : chunks.flatten = A ++ x ++ B) (h' : chunks'.flatten = A ++ y ++ B) :
    ∃ (c c' : Cipher) (rs rs' : List (List U8)) (last last' : List U8),
      crun T (Cipher.new iv) (.init key :: (chunks.map .write ++ [.flush])) = .ok (c, .ok [] :: (rs.map .ok ++ [.ok last])) ∧
      crun T (Cipher.new iv) (.init key :: (chunks'.map .write ++ [.flush])) = .ok (c', .ok [] :: (rs'.map .ok ++ [.ok last'])) ∧
      (rs.flatten ++ last).length = (rs'.flatten ++ last').length ∧
      ∀ i, 16 * i < (rs.flatten ++ last).length →
        (blockAt (rs.flatten ++ last) i = blockAt (rs'.flatten ++ last') i ↔ i < A.length / 16) := by
  obtain ⟨c, rs, last, h1, _, _, _, h2⟩ := cipher_session T iv key hk chunks
  obtain ⟨c', rs', last', h1', _, _, _, h2'⟩ := cipher_session T iv key hk chunks'
  have hp := pkcs7_length chunks.flatten
  have hp' := pkcs7_length chunks'.flatten
  have hm : chunks.flatten.length = chunks'.flatten.length := by rw [h, h']; simp [hl]
  refine ⟨c, c', rs, rs', last, last', h1, h1', by rw [h2, h2', encrypt_length, encrypt_length, hp, hp', hm], fun i hi => ?_⟩
  rw [h2, encrypt_length] at hi
  rw [h2, h2']
  obtain ⟨R, e, e'⟩ : ∃ R, pkcs7 16 chunks.flatten = A ++ x ++ R ∧ pkcs7 16 chunks'.flatten = A ++ y ++ R := by
    refine ⟨B ++ (pkcs7 16 chunks.flatten).drop chunks.flatten.length, ?_, ?_⟩
    · rw [pkcs7, List.drop_left, ← List.append_assoc, ← h]
    · rw [pkcs7, pkcs7, List.drop_left, ← List.append_assoc, ← h', hm]
  rw [e] at hp hi ⊢
  rw [e'] at hp' ⊢
  have other := blockAt_other A x y R hl hx
  have before : ∀ i, i < A.length / 16 →
      blockAt (encrypt key iv.toList (A ++ x ++ R)) i = blockAt (encrypt key iv.toList (A ++ y ++ R)) i := by
    intro i
    induction i with
    | zero =>
      intro h0
      rw [next_block key _ _ _ _ 0 (by simp) (by simp) (by omega) (by omega) (by simp; omega) (by simp; omega) (other _ (by omega)), prevBlock, prevBlock]
    | succ i ih =>
      intro h0
      rw [next_block key _ _ _ _ (i + 1) (by simp) (by simp) (by omega) (by omega) (by simp; omega) (by simp; omega) (other _ (by omega)), prevBlock,
        prevBlock]
      exact ih (by omega)
  refine ⟨fun hc => ?_, before i⟩
  refine Decidable.byContradiction fun hn => ?_
  have hk' := (settled key iv.toList iv.toList _ _ (by simp) (by simp) (by omega) (by omega) (A.length / 16) i (by omega) (by omega) (by omega)
    (fun l hl' _ => other l (by omega))).2 hc
  have hb : 16 * (A.length / 16) < (A ++ x ++ R).length := by omega
  have hb' : 16 * (A.length / 16) < (A ++ y ++ R).length := by omega
  rw [same_block key _ _ _ _ _ (by simp) (by simp) (by omega) (by omega) hb hb'] at hk'
  have hprev : prevBlock iv.toList (encrypt key iv.toList (A ++ x ++ R)) (A.length / 16) =
      prevBlock iv.toList (encrypt key iv.toList (A ++ y ++ R)) (A.length / 16) := by
    cases hq : A.length / 16 with
    | zero => rfl
    | succ q => exact before q (by omega)
  have l1 := blockAt_length _ _ (by omega) hb
  have l2 := blockAt_length _ _ (by omega) hb'
  have l3 := prevBlock_length iv.toList (encrypt key iv.toList (A ++ x ++ R)) (A.length / 16) (by simp) (by rw [encrypt_length]; omega)
    (by rw [encrypt_length]; omega)
  rw [← hprev, xor_comm, xor_comm (blockAt (A ++ y ++ R) _)] at hk'
  exact hxy (blockAt_changed A x y R hl hx (xor_injective _ _ _ (l1.trans l3.symm) (l2.trans l3.symm) hk'))

/-- C107: the same message encrypted with the same key and two ivs: no block of the one ciphertext is equal to the block at the same place of the other. -/
theorem C107_iv (T : Target) (iv iv' : Vector U8 16) (hiv : iv ≠ iv') (key : List U8) (hk : key.length = 16 ∨ key.length = 24 ∨ key.length = 32)
    (chunks chunks' : List (List U8)) (hm : chunks.flatten = chunks'.flatten) :
    ∃ (c c' : Cipher) (rs rs' : List (List U8)) (last last' : List U8),
      crun T (Cipher.new iv) (.init key :: (chunks.map .write ++ [.flush])) = .ok (c, .ok [] :: (rs.map .ok ++ [.ok last])) ∧
      crun T (Cipher.new iv') (.init key :: (chunks'.map .write ++ [.flush])) = .ok (c', .ok [] :: (rs'.map .ok ++ [.ok last'])) ∧
      ∀ i, 16 * i < (rs.flatten ++ last).length → blockAt (rs.flatten ++ last) i ≠ blockAt (rs'.flatten ++ last') i := by
  obtain ⟨c, rs, last, h1, _, _, _, h2⟩ := cipher_session T iv key hk chunks
  obtain ⟨c', rs', last', h1', _, _, _, h2'⟩ := cipher_session T iv' key hk chunks'
  refine ⟨c, c', rs, rs', last, last', h1, h1', fun i hi hc => ?_⟩
  have hp := pkcs7_length chunks.flatten
  rw [h2, encrypt_length] at hi
  rw [h2, h2', ← hm] at hc
  rw [← settled key _ _ _ _ (by simp) (by simp) (by omega) (by omega) 0 i (by omega) (by omega) (by omega) (fun _ _ _ => rfl),
    next_block key _ _ _ _ 0 (by simp) (by simp) (by omega) (by omega) (by omega) (by omega) rfl, prevBlock, prevBlock] at hc
  exact hiv (Vector.toList_inj.1 hc)

/-- A message of 40 bytes and the same with byte 20 changed, in other pieces; and the first with two ivs. -/
example (T : Target) (iv : Vector U8 16) (key : List U8) (hk : key.length = 16) :=
  C107_change T iv key (.inl hk) (List.replicate 20 7) [1] [2] (List.replicate 19 7) (by decide) rfl (by decide)
    [List.replicate 20 7 ++ [1], List.replicate 19 7] [List.replicate 20 7, 2 :: List.replicate 19 7] (by simp) (by simp)

example (T : Target) (key m : List U8) (hk : key.length = 16) :=
  C107_iv T (Vector.replicate 16 0) (Vector.replicate 16 1) (by decide) key (.inl hk) [m] [m.take 3, m.drop 3] (by simp)

example (T : Target) (iv iv' : Vector U8 16) (key m : List U8) (hk : key.length = 16) := C107_stays T iv iv' key (.inl hk) [m, m] [m ++ m]

end Verif.Props.CbcSpread
