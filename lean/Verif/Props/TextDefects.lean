import Verif.Props.ModelText

/-!
Property C88: the three defects (C18, C33, C34) are in the program that is written in the files, not only in the model of it.
-/

namespace Verif.Props.TextDefects
open Verif Verif.Source Verif.Text Verif.Props.Source Verif.Props.FromText Verif.AesCbc Verif.Props.Cbc

/-- The answers of a `Decipher` of the model to a message that it accepts, as answers of the program in the text. -/
theorem decipher_text {p : Program} (hp : IsProgram Files.lib sources p) (T : Target) (fuel depth : Nat) (hf : 65 ≤ fuel) (hd : 8 ≤ depth)
    (iv : Vector U8 16) (key : List U8) (hk : key.length = 16 ∨ key.length = 24 ∨ key.length = 32) (chunks : List (List U8))
    (hx : ∀ b ∈ chunks, b.length + 16 ≤ T.isizeMax) (m : List U8)
    (h : ∃ (d : Decipher) (rs : List (List U8)) (last : List U8),
      drun T (Decipher.new iv) (.init key :: (chunks.map .write ++ [.flush])) = .ok (d, .ok [] :: (rs.map .ok ++ [.ok last])) ∧
      rs.flatten ++ last = m) :
    ∃ (rs : List (List U8)) (last : List U8),
      sessionIn p T fuel depth (.aes_cbc_Decipher_new, [bytes iv.toList]) ((messageCalls key chunks).map decipherCall) =
        .ok (okVal .unit :: (rs.map (fun o => okVal (bytes o)) ++ [okVal (bytes last)])) ∧
      rs.flatten ++ last = m := by
  obtain ⟨d, rs, last, h1, h2⟩ := h
  obtain ⟨d', rs', r', h3, h4, -, -⟩ := decipher_session T iv key hk chunks
  have hl : rs.length = chunks.length := by
    rw [Verif.Props.Cbc.session, h1] at h3
    injection h3 with h3
    injection h3 with _ h3
    injection h3 with _ h3
    obtain ⟨h3, -⟩ := List.append_inj' h3 rfl
    have := congrArg List.length h3
    simp only [List.length_map] at this
    omega
  refine ⟨rs, last, ?_, h2⟩
  rw [C86_text.2 p hp, sessionIn_crate]
  rw [C68_source_decipher T fuel depth hf hd iv _ (message_reasonable T key chunks hx)]
  exact congrArg Except.ok (dec_answers T iv key chunks rs last d h1 hl)

variable {p : Program} (hp : IsProgram Files.lib sources p)
include hp

/-- **C88.** In the text, `Scrypt` accepts every power of two as `n`, also `n = 1` and `n ≥ 2 ^ (16 * r)`, and every `p`, although the
documentation of `Scrypt::new` (`Documented`) excludes them: `derive` returns `Ok(())` and a key. -/
theorem C88_scrypt (T : Target) (fuel depth : Nat) (hd : 8 ≤ depth) (r j k : Nat) (P S out : List U8) (hr : 1 ≤ r) (hk : 1 ≤ k)
    (_h : ¬ Verif.Props.Scrypt.Documented r (2 ^ j) k)
    (hmem : k * 128 * r ≤ T.isizeMax) (htab : 2 ^ j * T.vecSize ≤ T.isizeMax) (hP : 8 * P.length < 2 ^ T.bits)
    (hS : 8 * (64 + S.length + 4) < 2 ^ T.bits) (hB : 8 * (64 + k * 128 * r + 4) < 2 ^ T.bits)
    (hout : out.length ≤ T.isizeMax) :
    ∃ key, (call T p fuel depth .scrypt_Scrypt_new [.usize r, .usize (2 ^ j), .usize k] >>= fun (self, _) =>
        call T p fuel depth .scrypt_Scrypt_derive [self, bytes P, bytes S, bytes out]) = .ok (.enum .Ok [.unit], [bytes key]) :=
  ⟨_, C86_scrypt hp T fuel depth hd r (2 ^ j) k P S out hr ⟨j, rfl⟩ hk hmem htab hP hS hB hout⟩

/-- **C88.** In the text, `Decipher` accepts padding that is not PKCS#7: data of whole blocks that ends in a byte 0, encrypted with CBC and
written in any pieces, is accepted by `flush` and returned whole. -/
theorem C88_padding (T : Target) (fuel depth : Nat) (hf : 65 ≤ fuel) (hd : 8 ≤ depth) (iv : Vector U8 16)
    (key : List U8) (hk : key.length = 16 ∨ key.length = 24 ∨ key.length = 32) (data : List U8) (hm : data.length % 16 = 0)
    (hl : data.getLast? = some 0) (chunks : List (List U8)) (hx : ∀ b ∈ chunks, b.length + 16 ≤ T.isizeMax)
    (hc : chunks.flatten = Spec.Cbc.encrypt key iv.toList data) :
    (¬ ∃ m, data = Spec.Cbc.pkcs7 16 m) ∧
    ∃ (rs : List (List U8)) (last : List U8),
      sessionIn p T fuel depth (.aes_cbc_Decipher_new, [bytes iv.toList]) ((messageCalls key chunks).map decipherCall) =
        .ok (okVal .unit :: (rs.map (fun o => okVal (bytes o)) ++ [okVal (bytes last)])) ∧
      rs.flatten ++ last = data := by
  refine ⟨?_, decipher_text hp T fuel depth hf hd iv key hk chunks hx data (C33_refuted T iv key hk data hm hl chunks hc)⟩
  rintro ⟨m, rfl⟩
  obtain ⟨v, h0, h1, -⟩ := pkcs7_trailer m
  rw [hl] at h1
  injection h1 with h1
  subst h1
  simp at h0

/-- **C88.** In the text, `Decipher` accepts a ciphertext followed by 1 to 15 further bytes, and returns the message as if they were not
there. -/
theorem C88_incomplete (T : Target) (fuel depth : Nat) (hf : 65 ≤ fuel) (hd : 8 ≤ depth) (iv : Vector U8 16)
    (key : List U8) (hk : key.length = 16 ∨ key.length = 24 ∨ key.length = 32) (m junk : List U8) (hj : junk.length < 16)
    (chunks : List (List U8)) (hx : ∀ b ∈ chunks, b.length + 16 ≤ T.isizeMax)
    (hc : chunks.flatten = Spec.Cbc.encrypt key iv.toList (Spec.Cbc.pkcs7 16 m) ++ junk) :
    ∃ (rs : List (List U8)) (last : List U8),
      sessionIn p T fuel depth (.aes_cbc_Decipher_new, [bytes iv.toList]) ((messageCalls key chunks).map decipherCall) =
        .ok (okVal .unit :: (rs.map (fun o => okVal (bytes o)) ++ [okVal (bytes last)])) ∧
      rs.flatten ++ last = m :=
  decipher_text hp T fuel depth hf hd iv key hk chunks hx m (C34_refuted T iv key hk m junk hj chunks hc)

omit hp in
/-- The hypotheses hold: `n = 1`; a block of zeros; a ciphertext with one byte more. -/
example (T : Target) (iv : Vector U8 16) : ∃ p, IsProgram Files.lib sources p ∧
    (∃ key, (call T p 1 8 .scrypt_Scrypt_new [.usize 1, .usize (2 ^ 0), .usize 1] >>= fun (self, _) =>
        call T p 1 8 .scrypt_Scrypt_derive [self, bytes [1], bytes [2], bytes [0]]) = .ok (.enum .Ok [.unit], [bytes key])) ∧
    (∃ (rs : List (List U8)) (last : List U8),
      sessionIn p T 65 8 (.aes_cbc_Decipher_new, [bytes iv.toList])
          ((messageCalls (List.replicate 16 7) [Spec.Cbc.encrypt (List.replicate 16 7) iv.toList (List.replicate 16 0)]).map decipherCall) =
        .ok (okVal .unit :: (rs.map (fun o => okVal (bytes o)) ++ [okVal (bytes last)])) ∧
      rs.flatten ++ last = List.replicate 16 0) ∧
    (∃ (rs : List (List U8)) (last : List U8),
      sessionIn p T 65 8 (.aes_cbc_Decipher_new, [bytes iv.toList])
          ((messageCalls (List.replicate 16 7)
            [Spec.Cbc.encrypt (List.replicate 16 7) iv.toList (Spec.Cbc.pkcs7 16 [5]), [1]]).map decipherCall) =
        .ok (okVal .unit :: (rs.map (fun o => okVal (bytes o)) ++ [okVal (bytes last)])) ∧
      rs.flatten ++ last = [5]) := by
  have hT : 2 ^ 31 ≤ 2 ^ T.bits ∧ 2 ^ 31 - 1 ≤ T.isizeMax := by
    rcases T.bits_cases with h | h <;> simp [Target.isizeMax, h]
  refine ⟨crate, C86_text.1, ?_, ?_, ?_⟩
  · refine C88_scrypt C86_text.1 T 1 8 (by decide) 1 0 1 [1] [2] [0] (by decide) (by decide) (fun h => absurd h.1 (by decide)) ?_ ?_ ?_ ?_ ?_ ?_
    · omega
    · have : T.vecSize ≤ 24 := by rcases T with ⟨_ | _, _⟩ <;> simp [Target.vecSize, Target.bits, Width.bits]
      omega
    · simp; omega
    · simp; omega
    · omega
    · simp; omega
  · refine (C88_padding C86_text.1 T 65 8 (by decide) (by decide) iv (List.replicate 16 7) (by simp) (List.replicate 16 0) (by simp)
      (by decide) _ ?_ (by simp)).2
    intro b hb
    simp only [List.mem_singleton] at hb
    subst hb
    rw [encrypt_length]
    simp
    omega
  · refine C88_incomplete C86_text.1 T 65 8 (by decide) (by decide) iv (List.replicate 16 7) (by simp) [5] [1] (by simp) _ ?_ (by simp)
    intro b hb
    simp only [List.mem_cons, List.not_mem_nil, or_false] at hb
    rcases hb with rfl | rfl
    · rw [encrypt_length, pkcs7_length]
      simp
      omega
    · simp; omega

end Verif.Props.TextDefects
