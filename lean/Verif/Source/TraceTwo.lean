import Verif.Source.TraceAes

/-! What is seen of AES: the first two rounds. -/

set_option linter.constructorNameAsVariable false
set_option backward.isDefEq.respectTransparency false
namespace Verif.Source
open Verif Verif.Aes
variable (T : Target) (F d : Nat)

/-- src/aes.rs:349-374: the trace of `encrypt` up to the lookups of the second round. -/
theorem trace_encrypt2 (nr : Nat) (ks : List U32) (b : Vector U8 16) (hk : 8 ≤ ks.length) (hr : 3 ≤ nr) (hr' : nr ≤ 14) (s1 s2 : Block)
    (h1 : add_round_key (to_block b) (ks.take 4) = s1) (h2 : sub_bytes encLookup s1 = .ok s2) :
    ∃ rest, (callT T crate (F + 65) (d + 5) .aes_AES_encrypt [encAES ⟨nr, some ks⟩, bytes b.toList]).1 =
      .call .aes_to_block :: ((callT T crate (F + 65) (d + 4) .aes_to_block [bytes b.toList]).1 ++
        .branch true :: .range 0 4 :: .call .aes_AESEncrypt_add_round_key ::
          ((callT T crate (F + 65) (d + 4) .aes_AESEncrypt_add_round_key [encBlock (to_block b), words (ks.take 4)]).1 ++
            .count (nr - 1) :: .call .aes_AESEncrypt_sub_bytes :: .count 4 ::
              (s1.toList.flatMap colTrace ++
                .call .aes_AESEncrypt_shift_rows :: ((callT T crate (F + 65) (d + 4) .aes_AESEncrypt_shift_rows [encBlock s2]).1 ++
                .call .aes_AESEncrypt_mix_columns ::
                  ((callT T crate (F + 65) (d + 4) .aes_AESEncrypt_mix_columns [encBlock (encShiftRows s2)]).1 ++
                .range 4 8 :: .call .aes_AESEncrypt_add_round_key ::
                  ((callT T crate (F + 65) (d + 4) .aes_AESEncrypt_add_round_key
                    [encBlock (mix_columns encMixColumn (encShiftRows s2)), words ((ks.drop 4).take 4)]).1 ++
                .call .aes_AESEncrypt_sub_bytes :: .count 4 ::
                  ((add_round_key (mix_columns encMixColumn (encShiftRows s2)) ((ks.drop 4).take 4)).toList.flatMap colTrace ++ rest))))))) := by
  show ∃ rest, (evalT (ctxT T (F + 65) (d+4)) Gen.fn_aes_AES_encrypt.body [(.self, encAES ⟨nr, some ks⟩), (.b, bytes b.toList)]).1 = _
  have h4 : slice ks 0 4 = .ok (ks.take 4) := by simp [slice, show 4 ≤ ks.length by omega]
  have h8 : slice ks 4 8 = .ok ((ks.drop 4).take 4) := by
    simp only [slice, hk]
    simp [List.drop_take]
  obtain ⟨m, rfl⟩ := Nat.exists_eq_add_of_le' hr
  have hl : (List.range' 1 (m + 2)).map Val.usize = .usize 1 :: .usize 2 :: (List.range' 3 m).map .usize := by rw [List.range'_succ, List.range'_succ]; rfl
  evaluate [Gen.fn_aes_AES_encrypt, ctxT_erase, encAES, encOptWords, h4, h8, loopTr_cons, hl, trace_enc_sub_bytes, Small.mul, Small.add, h1, h2]
end Verif.Source
