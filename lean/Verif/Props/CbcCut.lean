import Verif.Props.CbcPaste

/-! Property C132: ciphertexts that were cut off. -/

namespace Verif.Props.CbcCut
open Verif Verif.Aes Verif.Pkcs7 Verif.AesCbc Spec.Cbc
open Verif.Props.Cbc (decipher_session decrypt_append_short)
open Verif.Props.CbcMisuse Verif.Props.CbcPaste

theorem decrypt_cut (key iv m : List U8) (hiv : iv.length = 16) (n : Nat) (hn : n < (encrypt key iv (pkcs7 16 m)).length) :
    decrypt key iv ((encrypt key iv (pkcs7 16 m)).take n) = m.take (16 * (n / 16)) := by
  have hc : (encrypt key iv (pkcs7 16 m)).length = 16 * (m.length / 16 + 1) := by rw [encrypt_length, pkcs7_length]; omega
  rw [hc] at hn
  have e : (encrypt key iv (pkcs7 16 m)).take n =
      (encrypt key iv (pkcs7 16 m)).take (16 * (n / 16)) ++ ((encrypt key iv (pkcs7 16 m)).drop (16 * (n / 16))).take (n - 16 * (n / 16)) := by
    rw [← List.take_add]
    congr 1
    omega
  have hp : (pkcs7 16 m).take (16 * (n / 16)) = m.take (16 * (n / 16)) := by
    rw [pkcs7, List.take_append_of_le_length (by omega)]
  have hl : (m.take (16 * (n / 16))).length = 16 * (n / 16) := by rw [List.length_take]; omega
  rw [e, encrypt_take _ _ _ _ (by rw [pkcs7_length]; omega), hp, decrypt_append_short _ _ _ _ (by rw [encrypt_length]; omega)
    (by rw [List.length_take]; omega), decrypt_encrypt _ _ _ hiv (by omega)]

/-- **C132.** What a `Decipher` says to the first `n` bytes of a ciphertext, if at least a byte is missing. Of the message it has the blocks that are still whole. Without
any it says `UnfinishedBlock`. Otherwise all depends on whether the last of these bytes of the message happens to look like padding: then the message is taken to
end there, without an error. -/
theorem C132_cut (T : Target) (key : List U8) (hk : key.length = 16 ∨ key.length = 24 ∨ key.length = 32) (iv : Vector U8 16) (m c : List U8)
    (hc : Encrypted T key iv m c) (n : Nat) (hn : n < c.length) (chunks : List (List U8)) (hs : chunks.flatten = c.take n)
    (kept : List U8) (hkept : kept = m.take (16 * (n / 16))) :
    ∃ (d : Decipher) (rs : List (List U8)) (r : Except DecipherError (List U8)),
      drun T (Decipher.new iv) (.init key :: (chunks.map .write ++ [.flush])) = .ok (d, .ok [] :: (rs.map .ok ++ [r])) ∧
      kept.length = 16 * (n / 16) ∧ rs.flatten = kept.take (kept.length - 16) ∧
      (n < 16 → r = .error (.PKCS7 .UnfinishedBlock)) ∧
      ∀ v, kept.getLast? = some v →
        (v.toNat ≤ 16 → (∀ b ∈ kept.drop (kept.length - v.toNat), b = v) →
          ∃ last, r = .ok last ∧ rs.flatten ++ last = m.take (16 * (n / 16) - v.toNat)) ∧
        (16 < v.toNat ∨ (∃ b ∈ kept.drop (kept.length - v.toNat), b ≠ v) → r = .error (.PKCS7 .InvalidPadding)) := by
  have hlen : c.length = 16 * (m.length / 16 + 1) := by rw [hc.eq hk, encrypt_length, pkcs7_length]; omega
  have hl : kept.length = 16 * (n / 16) := by rw [hkept, List.length_take]; omega
  have hP : kept = decrypt key iv.toList chunks.flatten := by
    rw [hs, hc.eq hk, decrypt_cut _ _ _ (by simp) _ (by rw [← hc.eq hk]; exact hn), hkept]
  obtain ⟨d, rs, r, h1, h2, h3, h4⟩ := decipher_session T iv key hk chunks
  have hr : rs.flatten = kept.take (kept.length - 16) := by
    have := h3 chunks.length kept (by rw [List.take_length]; exact hP)
    rwa [← h2, List.take_length] at this
  refine ⟨d, rs, r, h1, hl, hr, ?_, ?_⟩
  · intro h
    have h0 : kept = [] := List.eq_nil_of_length_eq_zero (by omega)
    rcases h4 kept hP with ⟨a, b⟩ | ⟨v, a, _⟩ | ⟨v, a, _⟩
    · exact b
    · rw [h0] at a; cases a
    · rw [h0] at a; cases a
  · intro v hv
    rcases h4 kept hP with ⟨a, _⟩ | ⟨w, a, b, last, e, f⟩ | ⟨w, a, b, e⟩
    · rw [a] at hv; cases hv
    · rw [hv] at a
      injection a with a
      subst a
      refine ⟨fun _ _ => ⟨last, e, ?_⟩, ?_⟩
      · rw [f, hl, hkept, List.take_take, Nat.min_eq_left (by omega)]
      · rintro (h | ⟨x, hx, hxv⟩)
        · have := b.1; omega
        · exact absurd (b.2 x hx) hxv
    · rw [hv] at a
      injection a with a
      subst a
      exact ⟨fun h5 h6 => absurd ⟨h5, h6⟩ b, fun _ => e⟩

/-- **C132.** If a block of the message ends in a zero byte, the ciphertext can be cut off anywhere in the block after it: the `Decipher` accepts it and
returns the message up to and with that byte. -/
theorem C132_zero (T : Target) (key : List U8) (hk : key.length = 16 ∨ key.length = 24 ∨ key.length = 32) (iv : Vector U8 16) (a b c : List U8)
    (hc : Encrypted T key iv (a ++ b) c) (ha : a.length % 16 = 0) (hz : a.getLast? = some 0) (n : Nat) (h1 : a.length ≤ n) (h2 : n < a.length + 16)
    (chunks : List (List U8)) (hs : chunks.flatten = c.take n) :
    ∃ (d : Decipher) (rs : List (List U8)) (last : List U8),
      drun T (Decipher.new iv) (.init key :: (chunks.map .write ++ [.flush])) = .ok (d, .ok [] :: (rs.map .ok ++ [.ok last])) ∧ rs.flatten ++ last = a := by
  have hlen : c.length = 16 * ((a ++ b).length / 16 + 1) := by rw [hc.eq hk, encrypt_length, pkcs7_length]; omega
  have hn : 16 * (n / 16) = a.length := by omega
  have hkept : a = (a ++ b).take (16 * (n / 16)) := by rw [hn, List.take_left]
  obtain ⟨d, rs, r, h3, _, _, _, h4⟩ := C132_cut T key hk iv _ c hc n (by rw [hlen, List.length_append]; omega) chunks hs a hkept
  obtain ⟨last, h5, h6⟩ := (h4 0 hz).1 (by simp) (by simp)
  refine ⟨d, rs, last, by rw [← h5]; exact h3, ?_⟩
  rw [h6]
  exact hkept.symm

/-- **C132.** If all bytes of the message are greater than 16, as those of printable text are, then no ciphertext that was cut off is accepted. -/
theorem C132_text (T : Target) (key : List U8) (hk : key.length = 16 ∨ key.length = 24 ∨ key.length = 32) (iv : Vector U8 16) (m c : List U8)
    (hc : Encrypted T key iv m c) (hm : ∀ b ∈ m, 16 < b.toNat) (n : Nat) (hn : n < c.length) (chunks : List (List U8)) (hs : chunks.flatten = c.take n) :
    ∃ (d : Decipher) (rs : List (List U8)) (e : DecipherError),
      drun T (Decipher.new iv) (.init key :: (chunks.map .write ++ [.flush])) = .ok (d, .ok [] :: (rs.map .ok ++ [.error e])) := by
  obtain ⟨d, rs, r, h1, h2, _, h3, h4⟩ := C132_cut T key hk iv m c hc n hn chunks hs _ rfl
  by_cases h : n < 16
  · exact ⟨d, rs, _, by rw [← h3 h]; exact h1⟩
  · cases hv : (m.take (16 * (n / 16))).getLast? with
    | none =>
      rw [List.getLast?_eq_none_iff] at hv
      rw [hv, List.length_nil] at h2
      omega
    | some v =>
      have hmem : v ∈ m := List.mem_of_mem_take (List.mem_of_getLast? hv)
      exact ⟨d, rs, _, by rw [← (h4 v hv).2 (.inl (hm v hmem))]; exact h1⟩

/-- A message of 40 bytes whose first 16 end in a zero, cut off after 20 bytes of ciphertext. -/
example (T : Target) (iv : Vector U8 16) : ∃ (c : List U8) (d : Decipher) (rs : List (List U8)) (last : List U8),
    Encrypted T (List.replicate 16 1) iv (List.replicate 15 7 ++ [0] ++ List.replicate 24 9) c ∧ c.length = 48 ∧
    drun T (Decipher.new iv) [.init (List.replicate 16 1), .write (c.take 20), .flush] = .ok (d, .ok [] :: (rs.map .ok ++ [.ok last])) ∧
    rs.flatten ++ last = List.replicate 15 7 ++ [0] := by
  have hk : (List.replicate 16 (1 : U8)).length = 16 ∨ (List.replicate 16 (1 : U8)).length = 24 ∨ (List.replicate 16 (1 : U8)).length = 32 := .inl rfl
  obtain ⟨o, rs0, last0, h1, h2, h3⟩ := Verif.Props.Cbc.C28_cbc_encrypt T iv _ hk [List.replicate 15 7 ++ [0] ++ List.replicate 24 9]
  have hc : Encrypted T (List.replicate 16 1) iv (List.replicate 15 7 ++ [0] ++ List.replicate 24 9) (rs0.flatten ++ last0) :=
    ⟨_, o, rs0, last0, h1, by simp, rfl⟩
  obtain ⟨d, rs, last, h4, h5⟩ := C132_zero T _ hk iv _ _ _ hc rfl rfl 20 (by decide) (by decide) [(rs0.flatten ++ last0).take 20] (by simp)
  refine ⟨_, d, rs, last, hc, ?_, h4, h5⟩
  rw [hc.eq hk, encrypt_length, pkcs7_length]
  rfl

end Verif.Props.CbcCut
