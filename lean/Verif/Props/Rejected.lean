import Verif.Props.CbcPaste
import Verif.Props.CbcSplit

/-! Property C133: a message that was rejected spoils the next one. -/

namespace Verif.Props.Rejected
open Verif Verif.Aes Verif.Pkcs7 Verif.AesCbc Spec.Cbc
open Verif.Props.Cbc (session decipher_session pkcs7_trailer)
open Verif.Props.CbcMisuse Verif.Props.CbcHistory Verif.Props.CbcSplit

theorem decrypt_append (key iv s t : List U8) (h : s.length % 16 = 0) :
    decrypt key iv (s ++ t) = decrypt key iv s ++ decrypt key (lastBlock iv s) t := by
  rw [decrypt_tail, tail, List.drop_of_length_le (by omega), List.nil_append]

/-- **C133.** A `Decipher` is given whole blocks whose padding is wrong, so that `flush` fails, and then the ciphertext of another message, with the last of these
blocks as its iv. The second `flush` succeeds, and what comes out for the second message is the last block of the first and then the message. -/
theorem C133_spoiled (T : Target) (iv : Vector U8 16) (key : List U8) (hk : key.length = 16 ∨ key.length = 24 ∨ key.length = 32)
    (pieces : List (List U8)) (x : List U8) (hx : pieces.flatten = x) (hw : x.length % 16 = 0) (P : List U8) (hP : P = decrypt key iv.toList x) (v : U8)
    (hv : P.getLast? = some v) (hbad : 16 < v.toNat ∨ ∃ b ∈ P.drop (P.length - v.toNat), b ≠ v)
    (m : List U8) (pieces' : List (List U8)) (hm : pieces'.flatten = encrypt key (lastBlock iv.toList x) (pkcs7 16 m)) :
    ∃ (d : Decipher) (rs rs' : List (List U8)) (last : List U8),
      drun T (Decipher.new iv) (.init key :: (pieces.map .write ++ [.flush]) ++ (pieces'.map .write ++ [.flush])) =
        .ok (d, .ok [] :: (rs.map .ok ++ [.error (.PKCS7 .InvalidPadding)]) ++ (rs'.map .ok ++ [.ok last])) ∧
      rs.flatten = P.take (P.length - 16) ∧ rs'.flatten ++ last = P.drop (P.length - 16) ++ m := by
  have hbad' : ¬ Trailer P v := by
    rintro ⟨h1, h2⟩
    rcases hbad with h | ⟨b, hb, hne⟩
    · omega
    · exact hne (h2 b hb)
  -- the first message
  obtain ⟨d1, rs, r, h1, h2, h3, h4⟩ := decipher_session T iv key hk pieces
  have hPx : P = decrypt key iv.toList pieces.flatten := by rw [hx, hP]
  have hr : r = .error (.PKCS7 .InvalidPadding) := by
    rcases h4 P hPx with ⟨a, _⟩ | ⟨w, a, b, _⟩ | ⟨w, a, b, e⟩
    · rw [a] at hv; cases hv
    · rw [hv] at a; injection a with a; subst a; exact absurd b hbad'
    · exact e
  subst hr
  have hrs : rs.flatten = P.take (P.length - 16) := by
    have := h3 pieces.length P (by rw [List.take_length]; exact hPx)
    rwa [← h2, List.take_length] at this
  -- the state in between
  have h0 : DMatches (Decipher.new iv) ⟨none, iv.toList, [], []⟩ := ⟨rfl, rfl, rfl, by simp, rfl, .inl rfl⟩
  obtain ⟨d0, as, a1, a2, -⟩ := drun_spec T (.init key :: pieces.map .write) (Decipher.new iv) _ h0
  obtain ⟨d0', fs, f1, -, -⟩ := drun_spec T [.flush] d0 _ a2
  have hj := drun_append T a1 f1
  have hlen := drun_length T _ _ _ _ f1
  obtain ⟨f, rfl⟩ : ∃ f, fs = [f] := List.length_eq_one_iff.1 hlen
  have h1' : drun T (Decipher.new iv) (.init key :: pieces.map .write ++ [.flush]) = .ok (d1, .ok [] :: (rs.map .ok ++ [.error (.PKCS7 .InvalidPadding)])) := h1
  rw [hj] at h1'
  have e1 := Prod.mk.inj (Except.ok.inj h1')
  have e2 := List.append_inj' (s₁ := as) (t₁ := [f]) (s₂ := .ok [] :: rs.map .ok) (t₂ := [.error (.PKCS7 .InvalidPadding)]) e1.2 rfl
  obtain ⟨e3, e4⟩ := e2
  have e5 : d0' = d1 := e1.1
  subst e3 e5
  injection e4 with e4
  subst e4
  have hfl : d0.flush T = .ok (d0', .error (.PKCS7 .InvalidPadding)) := by
    rw [drun, dstep] at f1
    cases hf : d0.flush T with
    | error p => rw [hf] at f1; cases f1
    | ok q => obtain ⟨q1, q2⟩ := q; rw [hf] at f1; cases f1; rfl
  have hsame : d0' = d0 := (C36_failed_flush T d0 d0' _ hfl []).1
  subst hsame
  -- the second message
  obtain ⟨d2, bs, b1, -, -⟩ := drun_spec T (pieces'.map .write ++ [.flush]) d0' _ a2
  obtain ⟨d3, rs2, r2, g1, g2, g3, g4⟩ := decipher_session T iv key hk (pieces ++ pieces')
  have g1' : drun T (Decipher.new iv) (.init key :: pieces.map .write ++ (pieces'.map .write ++ [.flush])) = .ok (d3, .ok [] :: (rs2.map .ok ++ [r2])) := by
    rw [← g1, session, List.map_append, List.append_assoc]
    rfl
  rw [drun_append T a1 b1] at g1'
  have k1 := (Prod.mk.inj (Except.ok.inj g1')).2
  rw [List.cons_append] at k1
  have k2 : rs.map Except.ok ++ bs = rs2.map .ok ++ [r2] := (List.cons.inj k1).2
  have hsplit : rs2 = rs2.take rs.length ++ rs2.drop rs.length := (List.take_append_drop _ _).symm
  have hl2 : rs2.length = rs.length + pieces'.length := by rw [g2, List.length_append, h2]
  rw [hsplit, List.map_append, List.append_assoc] at k2
  obtain ⟨k3, k4⟩ := List.append_inj k2 (by simp; omega)
  have k5 : rs = rs2.take rs.length := (List.map_inj_right fun a b h => by cases h; rfl).1 k3
  obtain ⟨w, hw1, hw2, hw3, hw4⟩ := pkcs7_trailer m
  have hPP : decrypt key iv.toList (pieces ++ pieces').flatten = P ++ pkcs7 16 m := by
    rw [List.flatten_append, hx, hm, decrypt_append _ _ _ _ hw, ← hP, decrypt_encrypt]
    · rw [lastBlock, List.getLastD_eq_getLast?]
      cases e : (blocks x).getLast? with
      | none => simp
      | some y => exact mem_blocks x y (List.mem_of_getLast? e)
    · rw [pkcs7_length]; omega
  have hlast : (P ++ pkcs7 16 m).getLast? = some w := by rw [List.getLast?_append, hw2]; rfl
  have hwle : w.toNat ≤ (pkcs7 16 m).length := by have := hw3.1; rw [pkcs7_length]; omega
  have htr : Trailer (P ++ pkcs7 16 m) w := by
    refine ⟨hw3.1, ?_⟩
    rw [List.length_append, Nat.add_sub_assoc hwle, List.drop_append, List.drop_of_length_le (by omega), List.nil_append,
      Nat.add_sub_cancel_left]
    exact hw3.2
  rcases g4 _ hPP.symm with ⟨a, _⟩ | ⟨w', a, _, last, c, e⟩ | ⟨w', a, b, _⟩
  · rw [a] at hlast; cases hlast
  · rw [hlast] at a
    injection a with a
    subst a
    subst c
    refine ⟨d2, rs, rs2.drop rs.length, last, ?_, hrs, ?_⟩
    · rw [← k4]
      exact drun_append T h1 b1
    · rw [List.length_append, Nat.add_sub_assoc hwle, List.take_append, List.take_of_length_le (by omega), Nat.add_sub_cancel_left, hw4,
        hsplit, ← k5, List.flatten_append, hrs, List.append_assoc] at e
      conv at e => rhs; rw [← List.take_append_drop (P.length - 16) P, List.append_assoc]
      exact List.append_cancel_left e
  · rw [hlast] at a
    injection a with a
    subst a
    exact absurd htr b

/-- **C133.** A new `Decipher` with the last block as its iv returns the second message as it is. -/
theorem C133_fresh (T : Target) (iv : Vector U8 16) (key : List U8) (hk : key.length = 16 ∨ key.length = 24 ∨ key.length = 32) (x : List U8)
    (iv' : Vector U8 16) (hiv : iv'.toList = lastBlock iv.toList x) (m : List U8) (pieces' : List (List U8))
    (hm : pieces'.flatten = encrypt key (lastBlock iv.toList x) (pkcs7 16 m)) :
    ∃ (d : Decipher) (rs : List (List U8)) (last : List U8),
      drun T (Decipher.new iv') (.init key :: (pieces'.map .write ++ [.flush])) = .ok (d, .ok [] :: (rs.map .ok ++ [.ok last])) ∧ rs.flatten ++ last = m :=
  Verif.Props.Cbc.C34_refuted T iv' key hk m [] (by decide) pieces' (by rw [hm, hiv, List.append_nil])

/-- A block of spaces, which does not end in padding, and then a message of three bytes. -/
example (T : Target) (iv : Vector U8 16) : ∃ (d : Decipher) (rs rs' : List (List U8)) (last x y : List U8),
    drun T (Decipher.new iv) [.init (List.replicate 16 1), .write x, .flush, .write y, .flush] =
      .ok (d, .ok [] :: (rs.map .ok ++ [.error (.PKCS7 .InvalidPadding)]) ++ (rs'.map .ok ++ [.ok last])) ∧
    rs'.flatten ++ last = List.replicate 16 0x20 ++ [1, 2, 3] := by
  have hP : List.replicate 16 (0x20 : U8) = decrypt (List.replicate 16 1) iv.toList (encrypt (List.replicate 16 1) iv.toList (List.replicate 16 0x20)) :=
    (decrypt_encrypt _ _ _ (by simp) rfl).symm
  obtain ⟨d, rs, rs', last, h1, _, h2⟩ := C133_spoiled T iv (List.replicate 16 1) (.inl rfl) [encrypt (List.replicate 16 1) iv.toList (List.replicate 16 0x20)]
    _ (by simp) (by rw [encrypt_length]; rfl) _ hP 0x20 rfl (.inl (by decide)) [1, 2, 3] [_] (List.append_nil _)
  exact ⟨d, rs, rs', last, _, _, h1, h2⟩

end Verif.Props.Rejected
