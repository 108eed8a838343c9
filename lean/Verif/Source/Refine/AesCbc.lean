import Verif.Source.Refine.Aes
import Verif.Source.Refine.Pkcs7
import Verif.Model.AesCbc

/-! The functions of `src/aes_cbc.rs` compute what the model says. -/

set_option linter.constructorNameAsVariable false
set_option backward.isDefEq.respectTransparency false

namespace Verif.Source
open Verif Verif.Aes Verif.Pkcs7 Verif.AesCbc

variable (T : Target) (F d : Nat)

/-- A `Cipher` as a value of the source. -/
def encCipher (c : Cipher) : Val :=
  .struct .Cipher [(.aes, encAES c.aes), (.pad, encPad c.pad), (.iv, bytes c.iv.toList)]
/-- A `Decipher` as a value of the source. -/
def encDecipher (c : Decipher) : Val :=
  .struct .Decipher [(.aes, encAES c.aes), (.unpad, encUnpad c.unpad), (.iv, bytes c.iv.toList), (.buffer, encPad c.buffer)]
/-- A `DecipherError` as a value of the source. -/
def encDecipherError : DecipherError → Val
  | .AES e => .enum .DecipherError_AES [encAESError e]
  | .PKCS7 e => .enum .DecipherError_PKCS7 [encUnpadError e]

theorem src_DecipherError_description (e : DecipherError) :
    call T crate F (d + 2) .aes_cbc_DecipherError_description [encDecipherError e] = .ok (.str e.description, []) := by
  rw [call_aes_cbc_DecipherError_description]
  cases e <;> evaluate [Gen.fn_aes_cbc_DecipherError_description, encDecipherError, DecipherError.description,
    src_AESError_description, src_UnpadError_description]

/-- src/aes_cbc.rs:149-153 `<DecipherError as Display>::fmt`: the formatter ends up with the displayed text appended. -/
theorem src_DecipherError_fmt (e : DecipherError) (s : String) :
    call T crate F (d + 3) .aes_cbc_DecipherError_fmt [encDecipherError e, .str s] =
      .ok (.enum .Ok [.unit], [.str (s ++ e.display)]) := by
  rw [call_aes_cbc_DecipherError_fmt]
  evaluate [Gen.fn_aes_cbc_DecipherError_fmt, src_DecipherError_description, DecipherError.display]

theorem src_Cipher_new (iv : Vector U8 16) :
    call T crate F (d + 2) .aes_cbc_Cipher_new [bytes iv.toList] = .ok (encCipher (Cipher.new iv), []) := by
  rw [call_aes_cbc_Cipher_new]
  evaluate [Gen.fn_aes_cbc_Cipher_new, Cipher.new, encCipher, src_Pad_new]

theorem src_Decipher_new (iv : Vector U8 16) :
    call T crate F (d + 2) .aes_cbc_Decipher_new [bytes iv.toList] = .ok (encDecipher (Decipher.new iv), []) := by
  rw [call_aes_cbc_Decipher_new]
  evaluate [Gen.fn_aes_cbc_Decipher_new, Decipher.new, encDecipher, src_Pad_new, src_Unpad_new]

theorem src_Cipher_init (self : Cipher) (key : List U8) :
    call T crate (F + 65) (d + 4) .aes_cbc_Cipher_init [encCipher self, bytes key] =
      up (self.init T key) >>= fun r => .ok (encRes encAESError encUnit r.2, [encCipher r.1]) := by
  rw [call_aes_cbc_Cipher_init]
  evaluate [Gen.fn_aes_cbc_Cipher_init, Cipher.init, encCipher, src_AES_init]
  refine R.bind_congr fun r => ?_
  rcases r with ⟨a, e | u⟩
  · evaluate [encRes]
  · evaluate [encRes, encUnit]

theorem src_Decipher_init (self : Decipher) (key : List U8) :
    call T crate (F + 65) (d + 4) .aes_cbc_Decipher_init [encDecipher self, bytes key] =
      up (self.init T key) >>= fun r => .ok (encRes encAESError encUnit r.2, [encDecipher r.1]) := by
  rw [call_aes_cbc_Decipher_init]
  evaluate [Gen.fn_aes_cbc_Decipher_init, Decipher.init, encDecipher, src_AES_init]
  refine R.bind_congr fun r => ?_
  rcases r with ⟨a, e | u⟩
  · evaluate [encRes]
  · evaluate [encRes, encUnit]

theorem xor_zipUpd (a b : Vector U8 16) : zipUpd (fun x y => x ^^^ y) a.toList b.toList = (xorBlock a b).toList := by
  rw [zipUpd_eq_zipWith _ _ _ (by simp), xorBlock, Vector.toList_zipWith]

theorem arrayFromSlice_toList {n : Nat} (v : Vector U8 n) : arrayFromSlice n v.toList = .ok v := by
  simp [arrayFromSlice, Vector.toList]

theorem src_encrypt_block (self : Cipher) (b : List U8) (h : self.aes.round_count ≤ 14) :
    call T crate (F + 65) (d + 6) .aes_cbc_Cipher_encrypt_block [encCipher self, bytes b] =
      up (self.encrypt_block b) >>= fun r => .ok (encRes encAESError bytes r.2, [encCipher r.1]) := by
  rw [call_aes_cbc_Cipher_encrypt_block]
  by_cases hb : b.length = 16
  · obtain ⟨v, rfl⟩ : ∃ v : Vector U8 16, b = v.toList := ⟨⟨b.toArray, by simpa using hb⟩, by simp⟩
    evaluate [Gen.fn_aes_cbc_Cipher_encrypt_block, Cipher.encrypt_block, encCipher, arrayFromSlice_toList]
    erw [forLoop_iterZip Val.u8 (fun s => [(.block, bytes s), (.self, encCipher self), (.b, bytes v.toList)])
      (fun x y => x ^^^ y) (xs := v.toList) (by simp)]
    · rw [xor_zipUpd]
      evaluate [encCipher, src_AES_encrypt, h]
      refine R.bind_congr fun r => ?_
      rcases r with e | o
      · evaluate [encRes, encCipher]
      · evaluate [encRes, encCipher]
    · intro i hi y s k
      evaluate [zipStep]
  · evaluate [Gen.fn_aes_cbc_Cipher_encrypt_block, Cipher.encrypt_block, encCipher, arrayFromSlice, hb]

/-- A loop whose body may return from the function. -/
def loopRet {α σ : Type} (body : α → σ → M (σ × Option Val)) : List α → σ → M (σ × Option Val)
  | [], s => .ok (s, none)
  | x :: xs, s => body x s >>= fun r =>
    match r.2 with
    | some v => .ok (r.1, some v)
    | none => loopRet body xs r.1

theorem forLoop_ret {α σ : Type} {step : α → E Val} (env : σ → Env) (Inv : σ → Prop) (body : α → σ → M (σ × Option Val))
    (xs : List α) (s : σ) (h0 : Inv s)
    (h : ∀ x ∈ xs, ∀ s, Inv s → ∀ k, nextIter (inScope (step x) (env s)) k = up (body x s) >>= fun r =>
      match r.2 with
      | some v => .ok (.ret v, env r.1)
      | none => k (env r.1))
    (hi : ∀ x s r, Inv s → body x s = .ok r → Inv r.1) :
    forLoop step xs (env s) = up (loopRet body xs s) >>= fun r =>
      match r.2 with
      | some v => .ok (.ret v, env r.1)
      | none => .ok (.val .unit, env r.1) := by
  induction xs generalizing s with
  | nil => rfl
  | cons x xs ih =>
    rw [forLoop_cons, h x (by simp) s h0, loopRet, up_bind, R.bind_assoc]
    cases hb : body x s with
    | error e => rfl
    | ok r =>
      simp only [up_ok, R.ok_bind]
      rcases r with ⟨s', _ | v⟩
      · exact ih s' (hi x s _ h0 hb) (fun x hx => h x (List.mem_cons_of_mem _ hx))
      · rfl

/-- The body of the loop of `Cipher::write`. -/
def encStep (block : List U8) (s : Cipher × List U8) : M ((Cipher × List U8) × Option Val) := do
  let r ← s.1.encrypt_block block
  match r.2 with
  | .error e => return ((r.1, s.2), some (.enum .Err [encAESError e]))
  | .ok c => return ((r.1, s.2 ++ c), none)

theorem encLoop_model (xs : List (List U8)) (self : Cipher) (result : List U8) :
    (loopRet encStep xs (self, result) >>= fun r => (.ok (match r.2 with
      | some v => (v, [encCipher r.1.1])
      | none => (Val.enum .Ok [bytes r.1.2], [encCipher r.1.1])) : M (Val × List Val))) =
    (Cipher.writeLoop xs self result >>= fun r => .ok (encRes encAESError bytes r.2, [encCipher r.1])) := by
  induction xs generalizing self result with
  | nil => rfl
  | cons x xs ih =>
    rw [loopRet, Cipher.writeLoop, encStep]
    cases self.encrypt_block x with
    | error e => rfl
    | ok r =>
      rcases r with ⟨s', e | c⟩
      · rfl
      · exact ih s' (result ++ c)

theorem encrypt_block_rounds (self : Cipher) (b : List U8) (r) (h : self.encrypt_block b = .ok r) : r.1.aes = self.aes := by
  rw [Cipher.encrypt_block] at h
  cases h1 : arrayFromSlice BLOCK_SIZE b with
  | error e => rw [h1] at h; cases h
  | ok v =>
    rw [h1] at h
    cases h2 : self.aes.encrypt (xorBlock v self.iv) with
    | error e =>
      have : (self.aes.encrypt (xorBlock v self.iv) >>= fun r => match r with
        | .ok new_iv => (pure ({ self with iv := new_iv }, .ok new_iv.toList) : M (Cipher × Except AESError (List U8)))
        | .error err => pure (self, .error err)) = .ok r := h
      rw [h2] at this; cases this
    | ok o =>
      have : (self.aes.encrypt (xorBlock v self.iv) >>= fun r => match r with
        | .ok new_iv => (pure ({ self with iv := new_iv }, .ok new_iv.toList) : M (Cipher × Except AESError (List U8)))
        | .error err => pure (self, .error err)) = .ok r := h
      rw [h2] at this
      cases o <;> cases this <;> rfl

theorem Pad_write_length (p : Pad) (b : List U8) (r) (h : p.write T b = .ok r) (bs : List U8) (hbs : r.2 = some bs) :
    bs.length ≤ p.storage.length + b.length := by
  unfold Pad.write at h
  dsimp only at h
  split at h
  · cases h; cases hbs
  · cases h1 : T.rem (p.storage ++ b).length p.block_size with
    | error e => rw [h1] at h; cases h
    | ok m =>
      rw [h1] at h
      dsimp only [Bind.bind, Except.bind] at h
      cases h2 : T.sub (p.storage ++ b).length m with
      | error e => rw [h2] at h; cases h
      | ok n =>
        rw [h2] at h
        cases h
        cases hbs
        simp only [List.length_take, List.length_append]
        omega

theorem src_Cipher_write (self : Cipher) (b : List U8) (h : self.aes.round_count ≤ 14)
    (hb : self.pad.storage.length + b.length ≤ T.isizeMax) :
    call T crate (F + 65) (d + 7) .aes_cbc_Cipher_write [encCipher self, bytes b] =
      up (self.write T b) >>= fun r => .ok (encRes encAESError bytes r.2, [encCipher r.1]) := by
  rw [call_aes_cbc_Cipher_write]
  evaluate [Gen.fn_aes_cbc_Cipher_write, Cipher.write, encCipher, src_Pad_write]
  cases hw : self.pad.write T b with
  | error e => rfl
  | ok r =>
    have hl : ∀ bs, r.2 = some bs → bs.length ≤ T.isizeMax := by
      intro bs hbs
      have := Pad_write_length T _ _ _ hw bs hbs
      omega
    rcases r with ⟨p, _ | bs⟩
    · evaluate [encOptBytes, encRes]
    · have hl := hl bs rfl
      have hr : T.reserve 1 bs.length = .ok () := T.reserve_ok (by omega)
      evaluate [encOptBytes, hr, forLoop_map]
      refine R.bind_congr fun cs => ?_
      have hm := congrArg up (encLoop_model cs ⟨self.aes, p, self.iv⟩ [])
      simp only [up_bind, up_ok, bytes, encCipher] at hm
      rw [← hm]
      erw [forLoop_ret (fun s : Cipher × List U8 => [(.result, bytes s.2), (.blocks, bytes bs), (.self, encCipher s.1),
        (.b, bytes b)]) (fun s => s.1.aes.round_count ≤ 14) encStep cs (⟨self.aes, p, self.iv⟩, []) h]
      · evaluate []
        refine R.bind_congr fun r => ?_
        rcases r with ⟨s, _ | v⟩
        · evaluate [encCipher]
        · evaluate [encCipher]
      · intro x _ s hs k
        have h2 := src_encrypt_block T F d s.1 x hs
        simp only [bytes] at h2
        evaluate [h2, encStep]
        refine R.bind_congr fun r => ?_
        rcases r with ⟨s, e | c⟩
        · evaluate [encRes]
        · evaluate [encRes]
      · intro x s r hs hr
        rw [encStep] at hr
        cases h3 : s.1.encrypt_block x with
        | error e => rw [h3] at hr; cases hr
        | ok q =>
          have h4 := encrypt_block_rounds _ _ _ h3
          rw [h3] at hr
          have h5 : q.1.aes.round_count ≤ 14 := h4 ▸ hs
          rcases q with ⟨c, e | o⟩ <;> cases hr <;> exact h5

theorem src_Cipher_flush (self : Cipher) (h : self.aes.round_count ≤ 14) (hp : self.pad.block_size ≤ 64) :
    call T crate (F + 65) (d + 7) .aes_cbc_Cipher_flush [encCipher self] =
      up (self.flush T) >>= fun r => .ok (encRes encAESError bytes r.2, [encCipher r.1]) := by
  rw [call_aes_cbc_Cipher_flush]
  have h2 := fun p b => src_encrypt_block T F d ⟨self.aes, p, self.iv⟩ b h
  simp only [encCipher] at h2
  evaluate [Gen.fn_aes_cbc_Cipher_flush, Cipher.flush, encCipher, src_Pad_flush, hp, h2]
  refine R.bind_congr fun p => ?_
  refine R.bind_congr fun r => ?_
  rcases r with ⟨c, e | o⟩
  · evaluate [encRes]
  · evaluate [encRes]

/-- The body of the loop of `Decipher::write`. -/
def decStep (ciphertext : List U8) (s : Decipher × List U8) : M ((Decipher × List U8) × Option Val) := do
  let block ← arrayFromSlice BLOCK_SIZE ciphertext
  let r ← s.1.aes.decrypt block
  match r with
  | .error e => return (s, some (.enum .Err [encDecipherError (.AES e)]))
  | .ok c => return (({ s.1 with iv := block }, s.2 ++ (xorBlock c s.1.iv).toList), none)

theorem decLoop_model (xs : List (List U8)) (self : Decipher) (result : List U8)
    (k : Decipher × Except DecipherError (List U8) → M (Val × List Val))
    (hk : ∀ c e, k (c, .error e) = .ok (.enum .Err [encDecipherError e], [encDecipher c])) :
    (loopRet decStep xs (self, result) >>= fun r => (match r.2 with
      | some v => .ok (v, [encDecipher r.1.1])
      | none => k (r.1.1, .ok r.1.2) : M (Val × List Val))) =
    (Decipher.writeLoop xs self result >>= k) := by
  induction xs generalizing self result with
  | nil => rfl
  | cons x xs ih =>
    rw [loopRet, Decipher.writeLoop, decStep]
    cases arrayFromSlice BLOCK_SIZE x with
    | error e => rfl
    | ok v =>
      simp only [bind_assoc]
      show (self.aes.decrypt v >>= _) = (self.aes.decrypt v >>= _)
      cases self.aes.decrypt v with
      | error e => rfl
      | ok r =>
        rcases r with e | c
        · exact (hk _ _).symm
        · exact ih _ _

/-- The end of `Decipher::write`. -/
def decEnd (x : Decipher × Except DecipherError (List U8)) : M (Val × List Val) :=
  match x.2 with
  | .error e => .ok (.enum .Err [encDecipherError e], [encDecipher x.1])
  | .ok p => x.1.unpad.write T p >>= fun q => .ok (.enum .Ok [bytes (q.2.getD [])], [encDecipher { x.1 with unpad := q.1 }])

theorem src_Decipher_write (self : Decipher) (b : List U8) (h : self.aes.round_count ≤ 14)
    (hb : self.buffer.storage.length + b.length ≤ T.isizeMax) :
    call T crate (F + 65) (d + 6) .aes_cbc_Decipher_write [encDecipher self, bytes b] =
      up (self.write T b) >>= fun r => .ok (encRes encDecipherError bytes r.2, [encDecipher r.1]) := by
  rw [call_aes_cbc_Decipher_write]
  evaluate [Gen.fn_aes_cbc_Decipher_write, Decipher.write, encDecipher, src_Pad_write]
  cases hw : self.buffer.write T b with
  | error e => rfl
  | ok r =>
    have hl : ∀ bs, r.2 = some bs → bs.length ≤ T.isizeMax := by
      intro bs hbs
      have := Pad_write_length T _ _ _ hw bs hbs
      omega
    rcases r with ⟨p, _ | bs⟩
    · evaluate [encOptBytes, encRes]
    · have hl := hl bs rfl
      have hr : T.reserve 1 bs.length = .ok () := T.reserve_ok (by omega)
      evaluate [encOptBytes, hr, forLoop_map]
      refine R.bind_congr fun cs => ?_
      erw [forLoop_ret (fun s : Decipher × List U8 => [(.padded_result, bytes s.2), (.blocks, bytes bs), (.self, encDecipher s.1),
        (.b, bytes b)]) (fun s => s.1.aes.round_count ≤ 14) decStep cs (⟨self.aes, self.unpad, self.iv, p⟩, []) h]
      · have hm := congrArg up (decLoop_model cs ⟨self.aes, self.unpad, self.iv, p⟩ [] (decEnd T) (fun _ _ => rfl))
        simp only [up_bind] at hm
        refine Eq.trans ?_ (hm.trans ?_)
        · evaluate []
          refine R.bind_congr fun r => ?_
          rcases r with ⟨s, _ | v⟩
          · evaluate [encDecipher, decEnd, src_Unpad_write]
            refine R.bind_congr fun q => ?_
            rcases q with ⟨u, _ | xs⟩
            · evaluate [encOptBytes]
            · evaluate [encOptBytes]
          · evaluate [encDecipher]
        · refine R.bind_congr fun x => ?_
          rcases x with ⟨c, e | o⟩
          · evaluate [decEnd, encRes, encDecipher]
          · evaluate [decEnd, encRes, encDecipher]
      · intro x _ s hs k
        by_cases hx : x.length = 16
        · obtain ⟨v, rfl⟩ : ∃ v : Vector U8 16, x = v.toList := ⟨⟨x.toArray, by simpa using hx⟩, by simp⟩
          evaluate [encDecipher, decStep, src_AES_decrypt, hs, arrayFromSlice_toList]
          refine R.bind_congr fun r => ?_
          rcases r with e | c
          · evaluate [encRes, encDecipherError]
          · evaluate [encRes]
            erw [forLoop_iterZip Val.u8 (fun c => [(.cleartext, bytes c), (.block, bytes v.toList), (.ciphertext, bytes v.toList),
              (.padded_result, bytes s.2), (.blocks, bytes bs), (.self, encDecipher s.1), (.b, bytes b)])
              (fun x y => x ^^^ y) (xs := c.toList) (by simp)]
            · rw [xor_zipUpd]
              evaluate [encDecipher]
            · intro i hi y s k
              evaluate [zipStep]
        · evaluate [encDecipher, decStep, arrayFromSlice, hx]
      · intro x s r hs hr
        rw [decStep] at hr
        cases h3 : arrayFromSlice BLOCK_SIZE x with
        | error e => rw [h3] at hr; cases hr
        | ok v =>
          rw [h3] at hr
          have hr : (s.1.aes.decrypt v >>= _) = Except.ok r := hr
          cases h4 : s.1.aes.decrypt v with
          | error e => rw [h4] at hr; cases hr
          | ok q =>
            rw [h4] at hr
            rcases q with e | o <;> cases hr <;> exact hs

theorem src_Decipher_flush (self : Decipher) :
    call T crate F (d + 2) .aes_cbc_Decipher_flush [encDecipher self] =
      up (self.flush T) >>= fun r => .ok (encRes encDecipherError bytes r.2, [encDecipher r.1]) := by
  rw [call_aes_cbc_Decipher_flush]
  evaluate [Gen.fn_aes_cbc_Decipher_flush, Decipher.flush, encDecipher, src_Unpad_flush]
  refine R.bind_congr fun r => ?_
  rcases r with ⟨c, e | o⟩
  · evaluate [encRes, encDecipherError]
  · evaluate [encRes]

end Verif.Source
