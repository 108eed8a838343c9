import Verif.Props.Rejected

/-! Property C135: bytes after the end of a ciphertext belong to the next message. -/

namespace Verif.Props.Stray
open Verif Verif.Aes Verif.Pkcs7 Verif.AesCbc Spec.Cbc
open Verif.Props.Cbc (pkcs7_trailer)
open Verif.Props.CbcMisuse Verif.Props.CbcHistory Verif.Props.CbcSplit Verif.Props.Rejected

theorem decrypt_stray (key iv c junk : List U8) (hiv : (lastBlock iv c).length = 16) (hc : c.length % 16 = 0) (hj : junk.length < 16) :
    decrypt key iv (c ++ junk) = decrypt key iv c := by
  rw [decrypt_append _ _ _ _ hc, List.append_right_eq_self, ← List.length_eq_zero_iff, decrypt_length _ _ _ hiv]
  omega

theorem lastBlock_stray (iv c junk : List U8) (hc : c.length % 16 = 0) (hj : junk.length < 16) :
    lastBlock iv (c ++ junk) = lastBlock iv c := by
  have h : blocks junk = [] := by
    rw [blocks]
    simp [show junk.length / 16 = 0 by omega]
  rw [lastBlock, lastBlock, blocks_append, List.drop_of_length_le (by rw [padCut]; omega), List.nil_append, h, List.append_nil]

theorem tail_stray (c junk : List U8) (hc : c.length % 16 = 0) (hj : junk.length < 16) : tail (c ++ junk) = junk := by
  rw [tail, List.length_append, show 16 * ((c.length + junk.length) / 16) = c.length by omega, List.drop_left]

theorem lastBlock_length (iv c : List U8) (h : iv.length = 16) : (lastBlock iv c).length = 16 := by
  rw [lastBlock, List.getLastD_eq_getLast?]
  cases e : (blocks c).getLast? with
  | none => exact h
  | some y => exact mem_blocks c y (List.mem_of_getLast? e)

/-- **C135.** A `Decipher` is given the ciphertext of a message and then less than a block, and `flush` is called. The message is returned. The bytes that were
too many are not dropped: what is written up to the next `flush` is decrypted as if it had begun with them, with the last block of the first ciphertext as the
iv, and accepted or rejected accordingly. -/
theorem C135_shifted (T : Target) (iv : Vector U8 16) (key : List U8) (hk : key.length = 16 ∨ key.length = 24 ∨ key.length = 32)
    (m c junk : List U8) (hc : c = encrypt key iv.toList (pkcs7 16 m)) (hj : junk.length < 16) (pieces : List (List U8))
    (hp : pieces.flatten = c ++ junk) (pieces' : List (List U8)) (P : List U8)
    (hP : P = decrypt key (lastBlock iv.toList c) (junk ++ pieces'.flatten)) :
    ∃ (d : Decipher) (rs rs' : List (List U8)) (last : List U8) (r : Except DecipherError (List U8)),
      drun T (Decipher.new iv) (.init key :: (pieces.map .write ++ [.flush]) ++ (pieces'.map .write ++ [.flush])) =
        .ok (d, .ok [] :: (rs.map .ok ++ [.ok last]) ++ (rs'.map .ok ++ [r])) ∧
      rs.flatten ++ last = m ∧ rs'.length = pieces'.length ∧ rs'.flatten = P.take (P.length - 16) ∧
      ((P = [] ∧ r = .error (.PKCS7 .UnfinishedBlock)) ∨
        (∃ v, P.getLast? = some v ∧ Trailer P v ∧ ∃ last', r = .ok last' ∧ rs'.flatten ++ last' = P.take (P.length - v.toNat)) ∨
        (∃ v, P.getLast? = some v ∧ ¬ Trailer P v ∧ r = .error (.PKCS7 .InvalidPadding))) := by
  have hc16 : c.length % 16 = 0 := by rw [hc, encrypt_length, pkcs7_length] <;> (try rw [pkcs7_length]) <;> omega
  obtain ⟨a, h1, h2⟩ := Verif.Props.Aes.init_valid T AES.new key hk
  obtain ⟨d, rs, r, h3, h4, h5, h6, h7, h8, h9⟩ := decipher_message T key pieces ⟨a, ⟨16, []⟩, iv, ⟨16, []⟩⟩ [] [] h2 rfl
    (by simp) rfl (Or.inl rfl)
  obtain ⟨w, -, hw2, hw3, hw4⟩ := pkcs7_trailer m
  have hd : decrypt key iv.toList pieces.flatten = pkcs7 16 m := by
    rw [hp, decrypt_stray _ _ _ _ (lastBlock_length _ _ (by simp)) hc16 hj, hc, decrypt_encrypt _ _ _ (by simp)]
    rw [pkcs7_length]; omega
  obtain ⟨last, rfl, e, hu⟩ : ∃ last, r = .ok last ∧ rs.flatten ++ last = m ∧ d.unpad = ⟨16, []⟩ := by
    rcases h9 (pkcs7 16 m) (by simpa using hd.symm) with ⟨a, _⟩ | ⟨v, a, b, ⟨last, c, e⟩, f⟩ | ⟨v, a, b, _⟩
    · rw [a] at hw2; cases hw2
    · rw [hw2] at a
      injection a with a
      subst a
      exact ⟨last, c, e.trans hw4, f⟩
    · rw [hw2] at a
      injection a with a
      subst a
      exact absurd hw3 b
  rw [List.nil_append, hp, tail_stray c junk hc16 hj] at h7
  rw [List.nil_append, hp, lastBlock_stray _ c junk hc16 hj] at h8
  obtain ⟨d', rs', r', g3, g4, g5, -, -, -, g9⟩ := decipher_message T key pieces' d junk [] (h6 ▸ h2) h7 hj hu (Or.inl rfl)
  rw [h8] at g5 g9
  have first : drun T (Decipher.new iv) (.init key :: (pieces.map .write ++ [.flush])) = .ok (d, .ok [] :: (rs.map .ok ++ [.ok last])) := by
    refine drun_cons T (x := .init key) ?_ h3
    rw [dstep, Decipher.init, show (Decipher.new iv).aes = AES.new from rfl, h1]
    rfl
  refine ⟨d', rs, rs', last, r', drun_append T first g3, e, g4, ?_, ?_⟩
  · have := g5 pieces'.length P (by rw [List.take_length]; simpa using hP)
    rwa [← g4, List.take_length] at this
  · rcases g9 P (by simpa using hP) with ⟨a, b, _⟩ | ⟨v, a, b, c, _⟩ | ⟨v, a, b, c, _⟩
    · exact .inl ⟨a, b⟩
    · exact .inr (.inl ⟨v, a, b, c⟩)
    · exact .inr (.inr ⟨v, a, b, c⟩)

/-- **C135.** So a `flush` may come too late: if the bytes that were too many are the first ones of the next message's ciphertext, and the rest follows, then both
messages are returned. -/
theorem C135_kept (T : Target) (iv : Vector U8 16) (key : List U8) (hk : key.length = 16 ∨ key.length = 24 ∨ key.length = 32)
    (m m' c junk rest : List U8) (hc : c = encrypt key iv.toList (pkcs7 16 m)) (hj : junk.length < 16)
    (hr : junk ++ rest = encrypt key (lastBlock iv.toList c) (pkcs7 16 m')) (pieces : List (List U8))
    (hp : pieces.flatten = c ++ junk) (pieces' : List (List U8)) (hp' : pieces'.flatten = rest) :
    ∃ (d : Decipher) (rs rs' : List (List U8)) (last last' : List U8),
      drun T (Decipher.new iv) (.init key :: (pieces.map .write ++ [.flush]) ++ (pieces'.map .write ++ [.flush])) =
        .ok (d, .ok [] :: (rs.map .ok ++ [.ok last]) ++ (rs'.map .ok ++ [.ok last'])) ∧
      rs.flatten ++ last = m ∧ rs'.flatten ++ last' = m' := by
  obtain ⟨d, rs, rs', last, r, h1, h2, -, -, h3⟩ := C135_shifted T iv key hk m c junk hc hj pieces hp pieces' (pkcs7 16 m') (by
    rw [hp', hr, decrypt_encrypt _ _ _ (lastBlock_length _ _ (by simp))]
    rw [pkcs7_length]; omega)
  obtain ⟨w, -, hw2, hw3, hw4⟩ := pkcs7_trailer m'
  rcases h3 with ⟨a, _⟩ | ⟨v, a, b, last', rfl, e⟩ | ⟨v, a, b, _⟩
  · rw [a] at hw2; cases hw2
  · rw [hw2] at a
    injection a with a
    subst a
    exact ⟨d, rs, rs', last, last', h1, h2, e.trans hw4⟩
  · rw [hw2] at a
    injection a with a
    subst a
    exact absurd hw3 b

/-- One byte too many, and after the `flush` nothing: the next `flush` finds no block. -/
example (T : Target) (iv : Vector U8 16) : ∃ (d : Decipher) (rs : List (List U8)) (last x : List U8),
    drun T (Decipher.new iv) [.init (List.replicate 16 1), .write x, .flush, .flush] =
      .ok (d, .ok [] :: (rs.map .ok ++ [.ok last]) ++ [.error (.PKCS7 .UnfinishedBlock)]) ∧ rs.flatten ++ last = [1, 2, 3] := by
  have hP : ([] : List U8) = decrypt (List.replicate 16 1)
      (lastBlock iv.toList (encrypt (List.replicate 16 1) iv.toList (pkcs7 16 [1, 2, 3]))) ([7] ++ ([] : List (List U8)).flatten) := by
    symm
    rw [← List.length_eq_zero_iff, decrypt_length _ _ _ (lastBlock_length _ _ (by simp))]
    rfl
  obtain ⟨d, rs, rs', last, r, h1, h2, h3, -, h4⟩ := C135_shifted T iv (List.replicate 16 1) (.inl rfl) [1, 2, 3] _ [7] rfl (by decide)
    [encrypt (List.replicate 16 1) iv.toList (pkcs7 16 [1, 2, 3]) ++ [7]] (List.append_nil _) [] [] hP
  obtain rfl := List.length_eq_zero_iff.1 h3
  rcases h4 with ⟨-, rfl⟩ | ⟨v, a, _⟩ | ⟨v, a, _⟩
  · exact ⟨d, rs, last, _, h1, h2⟩
  · cases a
  · cases a

/-- Two messages, with the `flush` three bytes into the second. -/
example (T : Target) (iv : Vector U8 16) : ∃ (d : Decipher) (rs rs' : List (List U8)) (last last' x y : List U8),
    drun T (Decipher.new iv) [.init (List.replicate 16 1), .write x, .flush, .write y, .flush] =
      .ok (d, .ok [] :: (rs.map .ok ++ [.ok last]) ++ (rs'.map .ok ++ [.ok last'])) ∧
    rs.flatten ++ last = [1, 2, 3] ∧ rs'.flatten ++ last' = [4, 5] := by
  obtain ⟨d, rs, rs', last, last', h⟩ := C135_kept T iv (List.replicate 16 1) (.inl rfl) [1, 2, 3] [4, 5] _ _ _ rfl
    (by rw [List.length_take]; omega) (List.take_append_drop 3 _) [_] (List.append_nil _) [_] (List.append_nil _)
  exact ⟨d, rs, rs', last, last', _, _, h⟩

end Verif.Props.Stray
