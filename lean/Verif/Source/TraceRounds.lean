import Verif.Source.TraceAes
import Verif.Source.Cost

/-!
What is looked up in the tables of S-boxes in all the rounds of `AES::encrypt` and `AES::decrypt`.
-/

set_option linter.constructorNameAsVariable false
set_option backward.isDefEq.respectTransparency false

namespace Verif.Source
open Verif Verif.Aes

/-- The index that follows a call of `g`. -/
def lookupAt (g : Fn) : Event → Trace → List Nat
  | .call f, .index i :: _ => if f = g then [i] else []
  | _, _ => []

/-- The indices that follow the calls of `g` immediately. -/
def lookups (g : Fn) : Trace → List Nat
  | [] => []
  | e :: t => lookupAt g e t ++ lookups g t

theorem lookups_cons {g : Fn} (e : Event) (t : Trace) (h : e.isCall g = false) : lookups g (e :: t) = lookups g t := by
  rw [lookups]
  cases e with
  | call f =>
    have : f ≠ g := by simpa [Event.isCall] using h
    rcases t with _ | ⟨e', t⟩
    · rfl
    · cases e' <;> simp [lookupAt, this]
  | _ => rfl

theorem lookups_append {g : Fn} (s t : Trace) (h : calls g s = 0) : lookups g (s ++ t) = lookups g t := by
  induction s with
  | nil => rfl
  | cons e s ih =>
    rw [calls_cons] at h
    have he : e.isCall g = false := by
      cases hn : e.isCall g
      · rfl
      · simp [hn] at h
    rw [List.cons_append, lookups_cons _ _ he]
    exact ih (by omega)

theorem lookups_zero {g : Fn} (s : Trace) (h : calls g s = 0) : lookups g s = [] := by
  simpa [lookups] using lookups_append s [] h

theorem lookups_cell (g : Fn) (i : Nat) (t : Trace) : lookups g (.call g :: .index i :: t) = i :: lookups g t := by
  rw [lookups, lookups_cons _ _ rfl]
  simp [lookupAt]

/-- The bytes of a state, column by column. -/
def blockIdx (s : Block) : List Nat := s.toList.flatMap fun c => c.toList.map (·.toNat)

theorem lookups_block {g : Fn} (cell : U8 → Trace) (hc : ∀ b, cell b = [.call g, .index b.toNat]) (cs : List (Vector U8 4)) (t : Trace) :
    lookups g (cs.flatMap (fun c => Event.count 4 :: c.toList.flatMap cell) ++ t) =
      cs.flatMap (fun c => c.toList.map (·.toNat)) ++ lookups g t := by
  have h1 (bs : List U8) (t : Trace) : lookups g (bs.flatMap cell ++ t) = bs.map (·.toNat) ++ lookups g t := by
    induction bs with
    | nil => rfl
    | cons b bs ih =>
      rw [List.flatMap_cons, hc, List.append_assoc, List.map_cons, List.cons_append, List.cons_append, List.cons_append,
        List.nil_append, lookups_cell, ih]
  induction cs with
  | nil => rfl
  | cons c cs ih =>
    rw [List.flatMap_cons, List.append_assoc, List.cons_append, lookups_cons _ _ rfl, h1, ih, List.flatMap_cons, List.append_assoc]

/-- The lookups of a loop. -/
theorem lookups_loop {g : Fn} {β σ : Type} {seen : Val → Env → Trace} {step : Val → E Val} (env : σ → Env) (f : β → Val)
    (next : β → σ → σ) (ix : σ → List Nat) (xs : List β) (s : σ) {k : Val → Env → Trace} (t : Trace)
    (h : ∀ x ∈ xs, ∀ s, (∀ t, lookups g (seen (f x) (env s) ++ t) = ix s ++ lookups g t) ∧
      ∀ k, nextIter (inScope (step (f x)) (env s)) k = k (env (next x s)))
    (fin : σ → List Nat) (hk : ∀ s, lookups g (k .unit (env s) ++ t) = fin s ++ lookups g t) :
    lookups g (loopTr seen step (xs.map f) (env s) ++ (after (forLoop step (xs.map f) (env s)) k ++ t)) =
      (List.range xs.length).flatMap (fun i => ix ((xs.take i).foldl (fun s x => next x s) s)) ++
        (fin (xs.foldl (fun s x => next x s) s) ++ lookups g t) := by
  induction xs generalizing s with
  | nil => exact hk s
  | cons x xs ih =>
    obtain ⟨h1, h3⟩ := h x (by simp) s
    rw [List.map_cons, loopTr_cons, forLoop_cons, h3, h3, after_val, List.append_assoc, h1, ih _ (fun y hy => h y (by simp [hy])),
      List.length_cons, List.range_succ_eq_map, List.flatMap_cons, List.flatMap_map, List.append_assoc]
    rfl

/-- The functions from which the lookups of the encryption are not reached. -/
def noEncLookup : Fn → Bool
  | .aes_AESEncrypt_lookup_sbox | .aes_AESEncrypt_sub_bytes | .aes_AES_encrypt | .aes_cbc_Cipher_encrypt_block | .aes_cbc_Cipher_write
  | .aes_cbc_Cipher_flush => false
  | _ => true

def noDecLookup : Fn → Bool
  | .aes_AESDecrypt_lookup_sbox | .aes_AESDecrypt_sub_bytes | .aes_AES_decrypt | .aes_cbc_Decipher_write => false
  | _ => true

theorem noEncLookup_closed : crate.closed noEncLookup .aes_AESEncrypt_lookup_sbox := by
  intro f
  cases f <;> decide +kernel

theorem noDecLookup_closed : crate.closed noDecLookup .aes_AESDecrypt_lookup_sbox := by
  intro f
  cases f <;> decide +kernel

section
variable (T : Target) (F d : Nat)

theorem no_enc_lookup (f : Fn) (hf : noEncLookup f = true) (args : List Val) (t : Trace) :
    lookups .aes_AESEncrypt_lookup_sbox ((callT T crate F d f args).1 ++ t) = lookups .aes_AESEncrypt_lookup_sbox t :=
  lookups_append _ _ (callT_avoids noEncLookup_closed T F d f hf args)

theorem no_dec_lookup (f : Fn) (hf : noDecLookup f = true) (args : List Val) (t : Trace) :
    lookups .aes_AESDecrypt_lookup_sbox ((callT T crate F d f args).1 ++ t) = lookups .aes_AESDecrypt_lookup_sbox t :=
  lookups_append _ _ (callT_avoids noDecLookup_closed T F d f hf args)

theorem enc_sub_lookups (s : Block) (t : Trace) :
    lookups .aes_AESEncrypt_lookup_sbox ((callT T crate F (d + 2) .aes_AESEncrypt_sub_bytes [encBlock s]).1 ++ t) =
      blockIdx s ++ lookups .aes_AESEncrypt_lookup_sbox t := by
  rw [trace_enc_sub_bytes, List.cons_append, lookups_cons _ _ rfl]
  exact lookups_block cellTrace (fun _ => rfl) s.toList t

theorem dec_sub_lookups (s : Block) (t : Trace) :
    lookups .aes_AESDecrypt_lookup_sbox ((callT T crate F (d + 2) .aes_AESDecrypt_sub_bytes [encBlock s]).1 ++ t) =
      blockIdx s ++ lookups .aes_AESDecrypt_lookup_sbox t := by
  rw [trace_dec_sub_bytes, List.cons_append, lookups_cons _ _ rfl]
  exact lookups_block decCellTrace (fun _ => rfl) s.toList t

/-- The state after a round. -/
def roundOr (r : M Block) (s : Block) : Block :=
  match r with
  | .ok s => s
  | .error _ => s

/-- The lookups of `AES::encrypt`: in each round the bytes of the state at its beginning. -/
theorem encrypt_lookups (nr : Nat) (ks : List U32) (b : Vector U8 16) (hk : ks.length = 4 * (nr + 1)) (hr : 1 ≤ nr) (hr' : nr ≤ 14) (t : Trace) :
    lookups .aes_AESEncrypt_lookup_sbox
        ((callT T crate (F + 65) (d + 5) .aes_AES_encrypt [encAES ⟨nr, some ks⟩, bytes b.toList]).1 ++ t) =
      (List.range nr).flatMap (fun i => blockIdx (((List.range' 1 (nr - 1)).take i).foldl (fun s r => roundOr (AES.encRound ks r s) s)
        (add_round_key (to_block b) (ks.take 4)))) ++ lookups .aes_AESEncrypt_lookup_sbox t := by
  have h4 : slice ks 0 4 = .ok (ks.take 4) := by simp [slice, hk]; omega
  have e : (callT T crate (F + 65) (d + 5) .aes_AES_encrypt [encAES ⟨nr, some ks⟩, bytes b.toList]).1 =
    (evalT (ctxT T (F + 65) (d+4)) Gen.fn_aes_AES_encrypt.body [(.self, encAES ⟨nr, some ks⟩), (.b, bytes b.toList)]).1 := rfl
  rw [e]
  clear e
  evaluate [Gen.fn_aes_AES_encrypt, ctxT_erase, encAES, encOptWords, h4]
  rw [lookups_cons _ _ rfl, no_enc_lookup T _ _ _ rfl, lookups_cons _ _ rfl, lookups_cons _ _ rfl, lookups_cons _ _ rfl,
    no_enc_lookup T _ _ _ rfl, lookups_cons _ _ rfl]
  refine (lookups_loop (fun s : Block => [(.round_keys, words ks), (.state, encBlock s), (.nr, .usize nr),
    (.self, encAES ⟨nr, some ks⟩), (.b, bytes b.toList)]) Val.usize (fun r s => roundOr (AES.encRound ks r s) s) blockIdx
    (List.range' 1 (nr - 1)) _ t ?_ blockIdx ?_).trans ?_
  · intro x hx s
    have hx' : 1 ≤ x ∧ x < nr := by
      have := List.mem_range'_1.1 hx
      omega
    have hl : slice ks (x * 4) ((x + 1) * 4) = .ok ((ks.take ((x + 1) * 4)).drop (x * 4)) := by
      rw [slice, if_pos (by omega)]
    obtain ⟨s1, h1, -⟩ := sub_bytes_enc s
    refine ⟨fun t => ?_, fun k => ?_⟩
    · evaluate [ctxT_erase, Small.mul, Small.add, NB, h1, hl]
      rw [lookups_cons _ _ rfl, enc_sub_lookups, lookups_cons _ _ rfl, no_enc_lookup T _ _ _ rfl, lookups_cons _ _ rfl,
        no_enc_lookup T _ _ _ rfl, lookups_cons _ _ rfl, lookups_cons _ _ rfl, no_enc_lookup T _ _ _ rfl]
    · evaluate [roundOr, AES.encRound, Small.mul, Small.add, NB, h1, hl]
  · intro s
    obtain ⟨s1, h1, -⟩ := sub_bytes_enc s
    have hl : sliceFrom ks (nr * 4) = .ok (ks.drop (nr * 4)) := by
      simp [sliceFrom, hk]
      omega
    evaluate [ctxT_erase, Small.mul, NB, h1, hl]
    rw [lookups_cons _ _ rfl, enc_sub_lookups, lookups_cons _ _ rfl, no_enc_lookup T _ _ _ rfl, lookups_cons _ _ rfl,
      lookups_cons _ _ rfl, no_enc_lookup T _ _ _ rfl, lookups_cons _ _ rfl, no_enc_lookup T _ _ _ rfl]
  · obtain ⟨n, rfl⟩ := Nat.exists_eq_add_of_le' hr
    rw [List.length_range', Nat.add_sub_cancel, List.range_succ, List.flatMap_append, List.flatMap_singleton,
      List.append_assoc, List.take_of_length_le (i := n) (by simp)]

/-- The lookups of `AES::decrypt`: in each round the bytes of the state at its beginning, their rows shifted. -/
theorem decrypt_lookups (nr : Nat) (ks : List U32) (b : Vector U8 16) (hk : ks.length = 4 * (nr + 1)) (hr : 1 ≤ nr) (hr' : nr ≤ 14) (t : Trace) :
    lookups .aes_AESDecrypt_lookup_sbox
        ((callT T crate (F + 65) (d + 5) .aes_AES_decrypt [encAES ⟨nr, some ks⟩, bytes b.toList]).1 ++ t) =
      (List.range nr).flatMap (fun i => blockIdx (decShiftRows (((List.range' 1 (nr - 1)).reverse.take i).foldl
        (fun s r => roundOr (AES.decRound ks r s) s) (add_round_key (to_block b) (ks.drop (nr * 4)))))) ++
          lookups .aes_AESDecrypt_lookup_sbox t := by
  have h4 : slice ks 0 4 = .ok (ks.take 4) := by simp [slice, hk]; omega
  have h4' : sliceFrom ks (nr * 4) = .ok (ks.drop (nr * 4)) := by
    simp [sliceFrom, hk]
    omega
  have e : (callT T crate (F + 65) (d + 5) .aes_AES_decrypt [encAES ⟨nr, some ks⟩, bytes b.toList]).1 =
    (evalT (ctxT T (F + 65) (d+4)) Gen.fn_aes_AES_decrypt.body [(.self, encAES ⟨nr, some ks⟩), (.b, bytes b.toList)]).1 := rfl
  rw [e]
  clear e
  evaluate [Gen.fn_aes_AES_decrypt, ctxT_erase, encAES, encOptWords, h4', Small.mul, NB]
  rw [lookups_cons _ _ rfl, no_dec_lookup T _ _ _ rfl, lookups_cons _ _ rfl, lookups_cons _ _ rfl, lookups_cons _ _ rfl,
    no_dec_lookup T _ _ _ rfl, lookups_cons _ _ rfl, lookups_cons _ _ rfl]
  refine (lookups_loop (fun s : Block => [(.round_keys, words ks), (.state, encBlock s), (.nr, .usize nr),
    (.self, encAES ⟨nr, some ks⟩), (.b, bytes b.toList)]) Val.usize (fun r s => roundOr (AES.decRound ks r s) s)
    (fun s => blockIdx (decShiftRows s)) (List.range' 1 (nr - 1)).reverse _ t ?_ (fun s => blockIdx (decShiftRows s)) ?_).trans ?_
  · intro x hx s
    have hx' : 1 ≤ x ∧ x < nr := by
      have := List.mem_range'_1.1 (List.mem_reverse.1 hx)
      omega
    have hl : slice ks (x * 4) ((x + 1) * 4) = .ok ((ks.take ((x + 1) * 4)).drop (x * 4)) := by
      rw [slice, if_pos (by omega)]
    obtain ⟨s1, h1, -⟩ := sub_bytes_dec (decShiftRows s)
    refine ⟨fun t => ?_, fun k => ?_⟩
    · evaluate [ctxT_erase, Small.mul, Small.add, NB, h1, hl]
      rw [lookups_cons _ _ rfl, no_dec_lookup T _ _ _ rfl, lookups_cons _ _ rfl, dec_sub_lookups, lookups_cons _ _ rfl,
        lookups_cons _ _ rfl, no_dec_lookup T _ _ _ rfl, lookups_cons _ _ rfl, no_dec_lookup T _ _ _ rfl]
    · evaluate [roundOr, AES.decRound, Small.mul, Small.add, NB, h1, hl]
  · intro s
    obtain ⟨s1, h1, -⟩ := sub_bytes_dec (decShiftRows s)
    evaluate [ctxT_erase, Small.mul, NB, h1, h4]
    rw [lookups_cons _ _ rfl, no_dec_lookup T _ _ _ rfl, lookups_cons _ _ rfl, dec_sub_lookups, lookups_cons _ _ rfl,
      lookups_cons _ _ rfl, no_dec_lookup T _ _ _ rfl, lookups_cons _ _ rfl, no_dec_lookup T _ _ _ rfl]
  · obtain ⟨n, rfl⟩ := Nat.exists_eq_add_of_le' hr
    rw [List.length_reverse, List.length_range', Nat.add_sub_cancel, List.range_succ, List.flatMap_append, List.flatMap_singleton,
      List.append_assoc, List.take_of_length_le (i := n) (by simp)]
end
end Verif.Source
