import Verif.Source.TraceAes
import Verif.Source.Refine.AesCbc
import Verif.Proof.Pkcs7

/-! What is seen of the functions of src/aes_cbc.rs and src/pkcs7.rs that deal with keys and padding. -/

set_option linter.constructorNameAsVariable false
set_option backward.isDefEq.respectTransparency false
namespace Verif.Source
open Verif Verif.Aes Verif.AesCbc Verif.Pkcs7
variable (T : Target) (F d : Nat)

theorem trace_Cipher_init (c : Cipher) (key : List U8) (hk : key.length = 16 ∨ key.length = 24 ∨ key.length = 32) :
    (callT T crate (F + 65) (d + 4) .aes_cbc_Cipher_init [encCipher c, bytes key]).1 =
      .call .aes_AES_init :: ((callT T crate (F + 65) (d + 3) .aes_AES_init [encAES c.aes, bytes key]).1 ++ [.branch true]) := by
  show (evalT (ctxT T (F + 65) (d + 3)) Gen.fn_aes_cbc_Cipher_init.body [(.self, encCipher c), (.key, bytes key)]).1 = _
  obtain ⟨ws, e, -⟩ := expand_key_ok T key (key.length / 4) (key.length / 4 + 6) (by omega) (by omega) (by omega) (by omega)
  have e : c.aes.init T key = .ok (⟨key.length / 4 + 6, some ws⟩, .ok ()) := by
    unfold AES.init
    rcases hk with h | h | h <;> simp only [h] at e ⊢ <;> rw [e] <;> rfl
  evaluate [Gen.fn_aes_cbc_Cipher_init, encCipher, src_AES_init, e, encRes, encUnit, ctxT_erase]

theorem trace_Decipher_init (c : Decipher) (key : List U8) (hk : key.length = 16 ∨ key.length = 24 ∨ key.length = 32) :
    (callT T crate (F + 65) (d + 4) .aes_cbc_Decipher_init [encDecipher c, bytes key]).1 =
      .call .aes_AES_init :: ((callT T crate (F + 65) (d + 3) .aes_AES_init [encAES c.aes, bytes key]).1 ++ [.branch true]) := by
  show (evalT (ctxT T (F + 65) (d + 3)) Gen.fn_aes_cbc_Decipher_init.body [(.self, encDecipher c), (.key, bytes key)]).1 = _
  obtain ⟨ws, e, -⟩ := expand_key_ok T key (key.length / 4) (key.length / 4 + 6) (by omega) (by omega) (by omega) (by omega)
  have e : c.aes.init T key = .ok (⟨key.length / 4 + 6, some ws⟩, .ok ()) := by
    unfold AES.init
    rcases hk with h | h | h <;> simp only [h] at e ⊢ <;> rw [e] <;> rfl
  evaluate [Gen.fn_aes_cbc_Decipher_init, encDecipher, src_AES_init, e, encRes, encUnit, ctxT_erase]

/-- What is seen of `Unpad::flush` with 16 bytes of which the last is `len`; `bad` says whether one of the last `len` differs
from it. -/
def unpadTrace (len : U8) (bad : Bool) : Trace :=
  [.sizes [16], .branch false, .sizes [16], .index 15] ++
    if len.toNat > 16 then [.branch true]
    else [.branch false, .range (16 - len.toNat) 16, .count len.toNat, .branch bad] ++
      if bad then [] else [.range 0 (16 - len.toNat), .sizes [16]]

/-- A loop without events. -/
theorem loopTr_quiet {α : Type} {seen : α → Env → Trace} {step : α → E Val} {xs : List α} (P : Env → Prop)
    (hs : ∀ x ∈ xs, ∀ env, P env → seen x env = [])
    (hk : ∀ x ∈ xs, ∀ env, P env → ∃ env', P env' ∧ ∀ k, nextIter (inScope (step x) env) k = k env') (env : Env) (he : P env) :
    loopTr seen step xs env = [] := by
  induction xs generalizing env with
  | nil => rfl
  | cons x xs ih =>
    obtain ⟨env', h1, h2⟩ := hk x (by simp) env he
    rw [loopTr_cons, hs x (by simp) env he, h2, after_val,
      ih (fun y hy => hs y (by simp [hy])) (fun y hy => hk y (by simp [hy])) env' h1]
    rfl

theorem trace_Unpad_flush (s : List U8) (hs : s.length = 16) :
    (callT T crate F (d + 1) .pkcs7_Unpad_flush [encUnpad ⟨16, s⟩]).1 =
      unpadTrace (s.getD 15 0) (decide (∃ b ∈ s.drop (16 - (s.getD 15 0).toNat), b ≠ s.getD 15 0)) := by
  show (evalT (ctxT T F d) Gen.fn_pkcs7_Unpad_flush.body [(.self, encUnpad ⟨16, s⟩)]).1 = _
  have h15 : idx s 15 = .ok (s.getD 15 0) := by
    rw [idx_ok _ _ (by omega)]
    simp [show 15 < s.length by omega]
  generalize s.getD 15 0 = len at *
  by_cases hlen : 16 < len.toNat
  · have h1 : (16#8) < len := by rw [BitVec.lt_def]; simpa using hlen
    evaluate [Gen.fn_pkcs7_Unpad_flush, encUnpad, ctxT_erase, hs, h15, unpadTrace, Small.sub, hlen, h1]
  · have h1 : ¬ (16#8) < len := by rw [BitVec.lt_def]; simpa using hlen
    have h2 : slice s (16 - len.toNat) 16 = .ok (s.drop (16 - len.toNat)) := by
      rw [Salsa20.slice_ok _ _ _ (by omega) (by omega), List.take_of_length_le (by omega)]
    have h3 : T.sub 16 len.toNat = .ok (16 - len.toNat) := T.sub_ok (by omega)
    have h4 : slice s 0 (16 - len.toNat) = .ok (s.take (16 - len.toNat)) := by
      rw [Salsa20.slice_ok _ _ _ (by omega) (by omega)]; rfl
    have h5 : 16 - (16 - len.toNat) = len.toNat := by omega
    evaluate [Gen.fn_pkcs7_Unpad_flush, encUnpad, ctxT_erase, hs, h15, unpadTrace, Small.sub, hlen, h1, h2, h3, h5]
    rw [loopTr_quiet (fun env => ∃ r, env = [(.is_same, .u8 r), (.pad_off, .usize (16 - len.toNat)), (.len, .u8 len),
      (.self, .struct .Unpad [(.block_size, .usize 16), (.storage, .seq (s.map .u8))])]) ?_ ?_ _ ⟨_, rfl⟩]
    · rw [forLoop_map]
      erw [forLoop_model (fun s' : U8 => [(.is_same, .u8 s'), (.pad_off, .usize (16 - len.toNat)), (.len, .u8 len),
        (.self, .struct .Unpad [(.block_size, .usize 16), (.storage, .seq (s.map .u8))])]) (forEach (s.drop (16 - len.toNat)) 0 fun b s => .ok (s ||| len ^^^ b)) rfl]
      · have h6 := foldl_or_eq_zero len (s.drop (16 - len.toNat)) 0
        rw [forEach_or]
        generalize List.foldl (fun s b => s ||| len ^^^ b) 0 (s.drop (16 - len.toNat)) = r at *
        by_cases hr : r = 0#8
        · have h7 : ¬ ∃ b, b ∈ s.drop (16 - len.toNat) ∧ ¬ b = len := by simpa using (h6.1 hr).2
          evaluate [hr, encUnpad, h7, h4, ctxT_erase, hs]
        · have h7 : ∃ b, b ∈ s.drop (16 - len.toNat) ∧ ¬ b = len := by
            apply Classical.byContradiction; intro h; exact hr (h6.2 ⟨rfl, by simpa using h⟩)
          evaluate [hr, encUnpad, h7, ctxT_erase]
      · intro b _ s k
        evaluate [encUnpad]
    · rintro x hx env ⟨r, rfl⟩
      obtain ⟨b, -, rfl⟩ := List.mem_map.1 hx
      evaluate [encUnpad, ctxT_erase]
    · rintro x hx env ⟨r, rfl⟩
      obtain ⟨b, -, rfl⟩ := List.mem_map.1 hx
      refine ⟨_, ⟨r ||| len ^^^ b, rfl⟩, fun k => ?_⟩
      evaluate [encUnpad, ctxT_erase]

theorem trace_Unpad_flush_empty :
    (callT T crate F (d + 1) .pkcs7_Unpad_flush [encUnpad ⟨16, []⟩]).1 = [.sizes [0], .branch true] := by
  show (evalT (ctxT T F d) Gen.fn_pkcs7_Unpad_flush.body [(.self, encUnpad ⟨16, []⟩)]).1 = _
  evaluate [Gen.fn_pkcs7_Unpad_flush, encUnpad, ctxT_erase]

instance (k : Nat) (s : List U8) (v : U8) : Decidable (padOk k s v) := by unfold padOk; infer_instance

theorem trace_Decipher_flush (c : Decipher) (s : List U8) (hs : s.length = 16) (hc : c.unpad = ⟨16, s⟩) :
    (callT T crate F (d + 2) .aes_cbc_Decipher_flush [encDecipher c]).1 =
      .call .pkcs7_Unpad_flush ::
        (unpadTrace (s.getD 15 0) (decide (∃ b ∈ s.drop (16 - (s.getD 15 0).toNat), b ≠ s.getD 15 0)) ++
          if padOk 16 s (s.getD 15 0) then [.branch false, .branch true] else [.branch true]) := by
  show (evalT (ctxT T F (d + 1)) Gen.fn_aes_cbc_Decipher_flush.body [(.self, encDecipher c)]).1 = _
  have hl : s.getLast? = some (s.getD 15 0) := by
    rw [List.getLast?_eq_getElem?, hs]
    simp [show 15 < s.length by omega]
  have hu := unpad_flush_full T 16 (by omega) (by omega) s _ hs hl
  have ht := trace_Unpad_flush T F d s hs
  generalize s.getD 15 0 = v at *
  by_cases hp : padOk 16 s v
  · evaluate [Gen.fn_aes_cbc_Decipher_flush, encDecipher, src_Unpad_flush, hc, ctxT_erase, ht, hs, hu.1 hp, encRes, hp]
  · evaluate [Gen.fn_aes_cbc_Decipher_flush, encDecipher, src_Unpad_flush, hc, ctxT_erase, ht, hs, hu.2 hp, encRes, hp,
      encUnpadError]

theorem trace_Decipher_flush_empty (c : Decipher) (hc : c.unpad = ⟨16, []⟩) :
    (callT T crate F (d + 2) .aes_cbc_Decipher_flush [encDecipher c]).1 =
      [.call .pkcs7_Unpad_flush, .sizes [0], .branch true, .branch true] := by
  show (evalT (ctxT T F (d + 1)) Gen.fn_aes_cbc_Decipher_flush.body [(.self, encDecipher c)]).1 = _
  have hu := unpad_flush_unfinished T 16 [] (by simp)
  evaluate [Gen.fn_aes_cbc_Decipher_flush, encDecipher, src_Unpad_flush, hc, ctxT_erase, trace_Unpad_flush_empty, hu, encRes,
    encUnpadError]

end Verif.Source
