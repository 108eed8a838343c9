import Verif.Source.Cost
import Verif.Source.Refine.AesCbc
import Verif.Proof.Counted
import Verif.Proof.CbcMachine

/-! How often the block cipher is called by the functions of src/aes_cbc.rs. -/

set_option linter.constructorNameAsVariable false
set_option backward.isDefEq.respectTransparency false

namespace Verif.Source
open Verif Verif.Aes Verif.Pkcs7 Verif.AesCbc

variable (T : Target) (F d : Nat)

/-! ### Code from which a function is not reached -/

section
variable {S : Fn → Bool} {g : Fn} (hS : crate.closed S g)
include hS

theorem closed_expr {e : Expr} {env : Env} (h : avoids S e = true) : calls g (evalT (ctxT T F d) e env).1 = 0 :=
  evalT_zero (S := S) (K := ctxT T F d) (fun f vs hf => ⟨(hS f hf).1, callT_avoids hS T F d f hf vs⟩) _ h env

theorem closed_seq {ss : List Expr} {e : Expr} {env : Env} (h : avoidsList S ss = true) (he : avoids S e = true) :
    calls g (evalSeqT (ctxT T F d) ss e env) = 0 := by
  have hK := fun f vs (hf : S f = true) => And.intro (hS f hf).1 (callT_avoids hS T F d f hf vs)
  rw [← evalSeqT_eq]
  exact (Zero.bind (evalListT_zero (K := ctxT T F d) hK ss h) fun _ => evalT_zero (K := ctxT T F d) hK e he) env

theorem closed_loop {p : Pat} {body : Expr} {step : Val → E Val} {xs : List Val} {env : Env} (h : avoids S body = true) :
    calls g (loopTr (seenOfPat (ctxT T F d) p body) step xs env) = 0 := by
  induction xs generalizing env with
  | nil => rfl
  | cons x xs ih =>
    rw [loopTr_cons, calls_append, calls_after _ _ fun _ _ => ih, seenOfPat, calls_after]
    intro _ env
    exact closed_expr T F d hS h
end

/-- The functions from which the encryption of a block is not reached. -/
def noEnc : Fn → Bool
  | .aes_AES_encrypt | .aes_cbc_Cipher_encrypt_block | .aes_cbc_Cipher_write | .aes_cbc_Cipher_flush => false
  | _ => true

/-- The functions from which the decryption of a block is not reached. -/
def noDec : Fn → Bool
  | .aes_AES_decrypt | .aes_cbc_Decipher_write => false
  | _ => true

/-- The functions from which the key schedule is not reached. -/
def noInit : Fn → Bool
  | .aes_AES_init | .aes_cbc_Cipher_init | .aes_cbc_Decipher_init => false
  | _ => true

theorem noEnc_closed : crate.closed noEnc .aes_AES_encrypt := by
  intro f
  cases f <;> decide +kernel

theorem noDec_closed : crate.closed noDec .aes_AES_decrypt := by
  intro f
  cases f <;> decide +kernel

theorem noInit_closed : crate.closed noInit .aes_AES_init := by
  intro f
  cases f <;> decide +kernel

/-- Encryption of a block. -/
local notation "EN" => Fn.aes_AES_encrypt
/-- Decryption of a block. -/
local notation "DE" => Fn.aes_AES_decrypt

theorem no_enc (f : Fn) (hf : noEnc f = true) (args : List Val) : calls EN (callT T crate F d f args).1 = 0 :=
  callT_avoids noEnc_closed T F d f hf args
theorem no_enc_itself (args : List Val) : calls EN (callT T crate F d EN args).1 = 0 :=
  callT_avoids' noEnc_closed T F d _ (by decide +kernel) args
theorem no_dec (f : Fn) (hf : noDec f = true) (args : List Val) : calls DE (callT T crate F d f args).1 = 0 :=
  callT_avoids noDec_closed T F d f hf args
theorem no_dec_itself (args : List Val) : calls DE (callT T crate F d DE args).1 = 0 :=
  callT_avoids' noDec_closed T F d _ (by decide +kernel) args

/-- A loop that runs to its end, each round with `c` calls. -/
theorem loop_calls_ret {g : Fn} {α σ : Type} {seen : Val → Env → Trace} {step : Val → E Val} (enc : α → Val) (env : σ → Env)
    (Inv : σ → Prop) (body : α → σ → M (σ × Option Val)) (c : Nat) (xs : List α) (s : σ) (h0 : Inv s)
    (h : ∀ x ∈ xs, ∀ s, Inv s → ∀ k, nextIter (inScope (step (enc x)) (env s)) k = up (body x s) >>= fun r =>
      match r.2 with
      | some v => .ok (.ret v, env r.1)
      | none => k (env r.1))
    (hi : ∀ x ∈ xs, ∀ s s', Inv s → body x s = .ok (s', none) → Inv s' ∧ calls g (seen (enc x) (env s)) = c)
    (s' : σ) (hr : loopRet body xs s = .ok (s', none)) :
    calls g (loopTr seen step (xs.map enc) (env s)) = xs.length * c := by
  induction xs generalizing s with
  | nil => simp [loopTr]
  | cons x xs ih =>
    rw [loopRet] at hr
    obtain ⟨⟨s1, o⟩, e1, hr⟩ := Counted.bind_ok hr
    rcases o with _ | v
    · obtain ⟨i1, i2⟩ := hi x (by simp) s s1 h0 e1
      rw [List.map_cons, loopTr_cons, calls_append, h x (by simp) s h0, e1, up_ok, R.ok_bind, i2]
      dsimp only
      rw [after_val, ih s1 i1 (fun y hy => h y (by simp [hy])) (fun y hy => hi y (by simp [hy])) hr, List.length_cons, Nat.succ_mul,
        Nat.add_comm]
    · cases hr

/-- A loop that is left in its first round. -/
theorem loop_calls_stop {g : Fn} {α σ : Type} {seen : Val → Env → Trace} {step : Val → E Val} (enc : α → Val) (env : σ → Env)
    (body : α → σ → M (σ × Option Val)) (c : Nat) (x : α) (xs : List α) (s s' : σ) (v : Val)
    (h : ∀ k, nextIter (inScope (step (enc x)) (env s)) k = up (body x s) >>= fun r =>
      match r.2 with
      | some v => .ok (.ret v, env r.1)
      | none => k (env r.1))
    (hb : body x s = .ok (s', some v)) (hc : calls g (seen (enc x) (env s)) = c) :
    calls g (loopTr seen step ((x :: xs).map enc) (env s)) = c := by
  rw [List.map_cons, loopTr_cons, calls_append, h, hb, up_ok, R.ok_bind, hc]
  rfl

attribute [-src] trace_for trace_forMut mutTr
attribute [local src] calls_append calls_cons calls_nil Event.isCall no_enc_itself no_dec_itself trace_for' trace_forMut'

theorem no_init_itself (args : List Val) : calls .aes_AES_init (callT T crate F d .aes_AES_init args).1 = 0 :=
  callT_avoids' noInit_closed T F d _ (by decide +kernel) args

theorem calls_tryTr {g : Fn} (v : Val) : calls g (tryTr v) = 0 := by
  unfold tryTr
  split <;> rfl

theorem calls_Cipher_init (self : Cipher) (key : List U8) :
    calls .aes_AES_init (callT T crate (F + 65) (d + 4) .aes_cbc_Cipher_init [encCipher self, bytes key]).1 = 1 := by
  show calls .aes_AES_init (evalT (ctxT T (F + 65) (d + 3)) Gen.fn_aes_cbc_Cipher_init.body [(.self, encCipher self), (.key, bytes key)]).1 = _
  evaluate [Gen.fn_aes_cbc_Cipher_init, encCipher, ctxT_erase, src_AES_init, no_init_itself]
  exact ⟨calls_after _ _ fun v _ => calls_tryTr v,
    calls_after _ _ fun _ _ => closed_seq T _ _ noInit_closed (by decide +kernel) (by decide +kernel)⟩

theorem calls_Decipher_init (self : Decipher) (key : List U8) :
    calls .aes_AES_init (callT T crate (F + 65) (d + 4) .aes_cbc_Decipher_init [encDecipher self, bytes key]).1 = 1 := by
  show calls .aes_AES_init (evalT (ctxT T (F + 65) (d + 3)) Gen.fn_aes_cbc_Decipher_init.body [(.self, encDecipher self), (.key, bytes key)]).1 = _
  evaluate [Gen.fn_aes_cbc_Decipher_init, encDecipher, ctxT_erase, src_AES_init, no_init_itself]
  exact ⟨calls_after _ _ fun v _ => calls_tryTr v,
    calls_after _ _ fun _ _ => closed_seq T _ _ noInit_closed (by decide +kernel) (by decide +kernel)⟩

theorem calls_encrypt_block (self : Cipher) (b : List U8) (hr : self.aes.round_count ≤ 14) (r : Cipher × Except AESError (List U8))
    (h : self.encrypt_block b = .ok r) :
    calls EN (callT T crate (F + 65) (d + 6) .aes_cbc_Cipher_encrypt_block [encCipher self, bytes b]).1 = 1 := by
  show calls EN (evalT (ctxT T (F + 65) (d + 5)) Gen.fn_aes_cbc_Cipher_encrypt_block.body [(.self, encCipher self), (.b, bytes b)]).1 = _
  unfold Cipher.encrypt_block at h
  obtain ⟨w, h1, hk⟩ := Counted.bind_ok h
  have hb : b.length = 16 := by
    unfold arrayFromSlice at h1
    split at h1
    · assumption
    · cases h1
  obtain ⟨v, rfl⟩ : ∃ v : Vector U8 16, b = v.toList := ⟨⟨b.toArray, by simpa using hb⟩, by simp⟩
  rw [arrayFromSlice_toList] at h1
  cases h1
  obtain ⟨e, h2, -⟩ := Counted.bind_ok hk
  evaluate [Gen.fn_aes_cbc_Cipher_encrypt_block, encCipher, ctxT_erase]
  rw [closed_expr T _ _ noEnc_closed (by decide +kernel)]
  erw [forLoop_iterZip Val.u8 (fun s => [(.block, bytes s), (.self, encCipher self), (.b, bytes w.toList)])
    (fun x y => x ^^^ y) (xs := w.toList) (by simp)]
  · rw [xor_zipUpd]
    evaluate [encCipher, src_AES_encrypt, hr, h2, ctxT_erase]
    rcases e with e | o
    · evaluate [encRes, ctxT_erase]
    · evaluate [encRes, ctxT_erase]
  · intro i hi y s k
    evaluate [zipStep]

theorem encrypt_block_ok (self : Cipher) (b : List U8) (c : Cipher) (o : List U8) (h : self.encrypt_block b = .ok (c, .ok o)) :
    o.length = 16 := by
  unfold Cipher.encrypt_block at h
  obtain ⟨v, _, h⟩ := Counted.bind_ok h
  obtain ⟨e, _, h⟩ := Counted.bind_ok h
  rcases e with e | w <;> cases h
  simp

theorem writeLoop_ok (cs : List (List U8)) (self : Cipher) (out : List U8) (c : Cipher) (o : List U8)
    (h : Cipher.writeLoop cs self out = .ok (c, .ok o)) :
    loopRet encStep cs (self, out) = .ok ((c, o), none) ∧ o.length = out.length + 16 * cs.length := by
  induction cs generalizing self out with
  | nil => cases h; exact ⟨rfl, rfl⟩
  | cons x xs ih =>
    rw [Cipher.writeLoop] at h
    obtain ⟨⟨s1, e⟩, h1, h⟩ := Counted.bind_ok h
    rcases e with e | w
    · cases h
    · obtain ⟨i1, i2⟩ := ih s1 (out ++ w) h
      refine ⟨?_, ?_⟩
      · rw [loopRet, encStep]
        simp only [h1]
        exact i1
      · rw [i2, List.length_append, encrypt_block_ok _ _ _ _ h1, List.length_cons]
        omega

theorem chunksAux_length {α : Type} (k n : Nat) (xs : List α) : (chunksAux k n xs).length = k := by
  induction k generalizing xs with
  | zero => rfl
  | succ k ih => rw [chunksAux, List.length_cons, ih]

theorem Pad_write_blocks (p : Pad) (b : List U8) (h16 : p.block_size = 16) (p' : Pad) (r : Option (List U8))
    (h : p.write T b = .ok (p', r)) :
    match r with
    | none => p.storage.length + b.length < 16
    | some bs => bs.length = (p.storage.length + b.length) / 16 * 16 := by
  unfold Pad.write at h
  dsimp only at h
  rw [h16, List.length_append] at h
  split at h
  · cases h
    assumption
  · rw [T.rem_ok (by decide)] at h
    obtain ⟨_, e, h⟩ := Counted.bind_ok h
    cases e
    rw [T.sub_ok (Nat.mod_le _ _)] at h
    obtain ⟨_, e, h⟩ := Counted.bind_ok h
    cases e
    cases h
    simp only [List.length_take, List.length_append]
    omega

theorem calls_Cipher_write (self : Cipher) (b : List U8) (hr : self.aes.round_count ≤ 14) (h16 : self.pad.block_size = 16)
    (hb : self.pad.storage.length + b.length ≤ T.isizeMax) (c : Cipher) (o : List U8) (h : self.write T b = .ok (c, .ok o)) :
    calls EN (callT T crate (F + 65) (d + 7) .aes_cbc_Cipher_write [encCipher self, bytes b]).1 =
      (self.pad.storage.length + b.length) / 16 := by
  show calls EN (evalT (ctxT T (F + 65) (d + 6)) Gen.fn_aes_cbc_Cipher_write.body [(.self, encCipher self), (.b, bytes b)]).1 = _
  unfold Cipher.write at h
  obtain ⟨⟨p, bs⟩, h1, h⟩ := Counted.bind_ok h
  rcases bs with _ | bs
  · cases h
    evaluate [Gen.fn_aes_cbc_Cipher_write, encCipher, ctxT_erase, src_Pad_write, h1, encOptBytes]
    rw [no_enc T _ _ _ rfl, Nat.div_eq_of_lt (by have := Pad_write_blocks T _ _ h16 _ _ h1; omega)]
  · obtain ⟨cs, h2, h⟩ := Counted.bind_ok h
    have hl : bs.length ≤ T.isizeMax := by
      have := Pad_write_length T _ _ _ h1 bs rfl
      omega
    have hres : T.reserve 1 bs.length = .ok () := T.reserve_ok (by omega)
    have w1 := (writeLoop_ok cs _ _ c o h).1
    have w2 : cs.length = (self.pad.storage.length + b.length) / 16 := by
      have := Pad_write_blocks T _ _ h16 _ _ h1
      rw [chunks, if_neg (by decide)] at h2
      cases h2
      rw [chunksAux_length, this]
      show ((self.pad.storage.length + b.length) / 16 * 16 + 16 - 1) / 16 = _
      omega
    evaluate [Gen.fn_aes_cbc_Cipher_write, encCipher, ctxT_erase, src_Pad_write, h1, encOptBytes, hres, h2]
    rw [no_enc T _ _ _ rfl, calls_after _ _ fun _ _ => closed_seq T _ _ noEnc_closed (by decide +kernel) (by decide +kernel), List.map_map]
    erw [loop_calls_ret (fun c : List U8 => .seq (c.map .u8)) (fun s : Cipher × List U8 => [(.result, bytes s.2), (.blocks, bytes bs), (.self, encCipher s.1),
        (.b, bytes b)]) (fun s => s.1.aes.round_count ≤ 14) encStep 1 cs (⟨self.aes, p, self.iv⟩, []) hr ?_ ?_ (c, o) w1]
    · rw [w2]
      omega
    · intro x _ s hs k
      have h2 := src_encrypt_block T F d s.1 x hs
      simp only [bytes] at h2
      evaluate [h2, encStep]
      refine R.bind_congr fun r => ?_
      rcases r with ⟨s, e | c⟩
      · evaluate [encRes]
      · evaluate [encRes]
    · intro x _ s s' hs hx
      rw [encStep] at hx
      obtain ⟨⟨s1, e⟩, h3, hx⟩ := Counted.bind_ok hx
      rcases e with e | w
      · cases hx
      · cases hx
        have h4 := encrypt_block_rounds _ _ _ h3
        refine ⟨?_, ?_⟩
        · show s1.aes.round_count ≤ 14
          rw [show s1.aes = s.1.aes from h4]
          exact hs
        · have c1 := calls_encrypt_block T F d s.1 x hs _ h3
          have h2 := src_encrypt_block T F d s.1 x hs
          simp only [bytes] at c1 h2
          evaluate [h2, h3, encRes, ctxT_erase]
          rw [c1]

theorem chunks_cons (bs : List U8) (cs : List (List U8)) (n : Nat) (hn : bs.length = n / 16 * 16) (h16 : 16 ≤ n) (h : chunks bs BLOCK_SIZE = .ok cs) :
    ∃ x xs, cs = x :: xs ∧ x.length = 16 := by
  rw [chunks, if_neg (by decide)] at h
  cases h
  obtain ⟨k, hk⟩ : ∃ k, (bs.length + BLOCK_SIZE - 1) / BLOCK_SIZE = k + 1 :=
    ⟨(bs.length + BLOCK_SIZE - 1) / BLOCK_SIZE - 1, by show (bs.length + 16 - 1) / 16 = (bs.length + 16 - 1) / 16 - 1 + 1; omega⟩
  rw [hk, chunksAux]
  refine ⟨_, _, rfl, ?_⟩
  rw [List.length_take]
  show min 16 bs.length = 16
  omega

theorem calls_Cipher_write_none (self : Cipher) (b : List U8) (hr : self.aes.round_count ≤ 14) (h16 : self.pad.block_size = 16)
    (hb : self.pad.storage.length + b.length ≤ T.isizeMax) (hn : self.aes.round_keys = none)
    (h : 16 ≤ self.pad.storage.length + b.length) (r : Cipher × Except AESError (List U8)) (hw : self.write T b = .ok r) :
    calls EN (callT T crate (F + 65) (d + 7) .aes_cbc_Cipher_write [encCipher self, bytes b]).1 = 1 := by
  show calls EN (evalT (ctxT T (F + 65) (d + 6)) Gen.fn_aes_cbc_Cipher_write.body [(.self, encCipher self), (.b, bytes b)]).1 = _
  unfold Cipher.write at hw
  obtain ⟨⟨p, bs⟩, h1, hw⟩ := Counted.bind_ok hw
  have h0 := Pad_write_blocks T _ _ h16 _ _ h1
  rcases bs with _ | bs
  · dsimp only at h0; omega
  · obtain ⟨cs, h2, hw⟩ := Counted.bind_ok hw
    clear hw
    have hl : bs.length ≤ T.isizeMax := by
      have := Pad_write_length T _ _ _ h1 bs rfl
      omega
    have hres : T.reserve 1 bs.length = .ok () := T.reserve_ok (by omega)
    obtain ⟨x, xs, rfl, hx⟩ := chunks_cons bs cs _ h0 h h2
    have h3 : Cipher.encrypt_block ⟨self.aes, p, self.iv⟩ x = .ok (⟨self.aes, p, self.iv⟩, .error .NotInitialized) :=
      encrypt_block_none ⟨self.aes, p, self.iv⟩ hn x hx
    evaluate [Gen.fn_aes_cbc_Cipher_write, encCipher, ctxT_erase, src_Pad_write, h1, encOptBytes, hres, h2]
    rw [no_enc T _ _ _ rfl, calls_after _ _ fun _ _ => closed_seq T _ _ noEnc_closed (by decide +kernel) (by decide +kernel), List.map_map]
    erw [loop_calls_stop (fun c : List U8 => .seq (c.map .u8)) (fun s : Cipher × List U8 => [(.result, bytes s.2), (.blocks, bytes bs), (.self, encCipher s.1),
        (.b, bytes b)]) encStep 1 x xs (⟨self.aes, p, self.iv⟩, []) (⟨self.aes, p, self.iv⟩, []) (.enum .Err [encAESError .NotInitialized]) ?_ ?_ ?_]
    · intro k
      have h2 := src_encrypt_block T F d ⟨self.aes, p, self.iv⟩ x hr
      simp only [bytes] at h2
      evaluate [h2, encStep]
      refine R.bind_congr fun r => ?_
      rcases r with ⟨s, e | c⟩
      · evaluate [encRes]
      · evaluate [encRes]
    · rw [encStep, h3]
      rfl
    · have c1 := calls_encrypt_block T F d ⟨self.aes, p, self.iv⟩ x hr _ h3
      have h2 := src_encrypt_block T F d ⟨self.aes, p, self.iv⟩ x hr
      simp only [bytes] at c1 h2
      evaluate [h2, h3, encRes, ctxT_erase]
      rw [c1]

theorem calls_Cipher_flush (self : Cipher) (hr : self.aes.round_count ≤ 14) (hp : self.pad.block_size ≤ 64)
    (r : Cipher × Except AESError (List U8)) (h : self.flush T = .ok r) :
    calls EN (callT T crate (F + 65) (d + 7) .aes_cbc_Cipher_flush [encCipher self]).1 = 1 := by
  show calls EN (evalT (ctxT T (F + 65) (d + 6)) Gen.fn_aes_cbc_Cipher_flush.body [(.self, encCipher self)]).1 = _
  unfold Cipher.flush at h
  obtain ⟨⟨p, bl⟩, h1, h⟩ := Counted.bind_ok h
  have h2 := src_encrypt_block T F d ⟨self.aes, p, self.iv⟩ bl hr
  have c1 := calls_encrypt_block T F d ⟨self.aes, p, self.iv⟩ bl hr r h
  have h3 : Cipher.encrypt_block ⟨self.aes, p, self.iv⟩ bl = .ok r := h
  simp only [encCipher, bytes] at h2 c1
  rw [h3] at h2
  evaluate [Gen.fn_aes_cbc_Cipher_flush, encCipher, src_Pad_flush, hp, h1, h2, ctxT_erase]
  rw [no_enc T _ _ _ rfl, c1]
  rcases r with ⟨c, e | o⟩
  · evaluate [encRes, ctxT_erase]
  · evaluate [encRes, ctxT_erase]

theorem decLoop_ok (cs : List (List U8)) (self : Decipher) (out : List U8) (c : Decipher) (o : List U8)
    (h : Decipher.writeLoop cs self out = .ok (c, .ok o)) : loopRet decStep cs (self, out) = .ok ((c, o), none) := by
  induction cs generalizing self out with
  | nil => cases h; rfl
  | cons x xs ih =>
    rw [Decipher.writeLoop] at h
    obtain ⟨v, h1, h⟩ := Counted.bind_ok h
    obtain ⟨e, h2, h⟩ := Counted.bind_ok h
    rcases e with e | w
    · cases h
    · rw [loopRet, decStep]
      simp only [h1]
      show ((self.aes.decrypt v >>= _) >>= _) = _
      rw [h2]
      exact ih _ _ h

theorem calls_Decipher_write (self : Decipher) (b : List U8) (hr : self.aes.round_count ≤ 14) (h16 : self.buffer.block_size = 16)
    (hb : self.buffer.storage.length + b.length ≤ T.isizeMax) (c : Decipher) (o : List U8) (h : self.write T b = .ok (c, .ok o)) :
    calls DE (callT T crate (F + 65) (d + 6) .aes_cbc_Decipher_write [encDecipher self, bytes b]).1 =
      (self.buffer.storage.length + b.length) / 16 := by
  show calls DE (evalT (ctxT T (F + 65) (d + 5)) Gen.fn_aes_cbc_Decipher_write.body [(.self, encDecipher self), (.b, bytes b)]).1 = _
  unfold Decipher.write at h
  obtain ⟨⟨p, bs⟩, h1, h⟩ := Counted.bind_ok h
  rcases bs with _ | bs
  · evaluate [Gen.fn_aes_cbc_Decipher_write, encDecipher, ctxT_erase, src_Pad_write, h1, encOptBytes]
    rw [no_dec T _ _ _ rfl, Nat.div_eq_of_lt (by have := Pad_write_blocks T _ _ h16 _ _ h1; omega)]
  · obtain ⟨cs, h2, h⟩ := Counted.bind_ok h
    obtain ⟨⟨s1, q⟩, h3, h⟩ := Counted.bind_ok h
    rcases q with q | q
    · cases h
    have hl : bs.length ≤ T.isizeMax := by
      have := Pad_write_length T _ _ _ h1 bs rfl
      omega
    have hres : T.reserve 1 bs.length = .ok () := T.reserve_ok (by omega)
    have w1 := decLoop_ok cs _ _ s1 q h3
    have w2 : cs.length = (self.buffer.storage.length + b.length) / 16 := by
      have := Pad_write_blocks T _ _ h16 _ _ h1
      rw [chunks, if_neg (by decide)] at h2
      cases h2
      rw [chunksAux_length, this]
      show ((self.buffer.storage.length + b.length) / 16 * 16 + 16 - 1) / 16 = _
      omega
    evaluate [Gen.fn_aes_cbc_Decipher_write, encDecipher, ctxT_erase, src_Pad_write, h1, encOptBytes, hres, h2]
    rw [no_dec T _ _ _ rfl, calls_after _ _ fun _ _ => closed_seq T _ _ noDec_closed (by decide +kernel) (by decide +kernel), List.map_map]
    erw [loop_calls_ret (fun c : List U8 => .seq (c.map .u8)) (fun s : Decipher × List U8 => [(.padded_result, bytes s.2),
        (.blocks, bytes bs), (.self, encDecipher s.1), (.b, bytes b)]) (fun s => s.1.aes.round_count ≤ 14) decStep 1 cs
        (⟨self.aes, self.unpad, self.iv, p⟩, []) hr ?_ ?_ (s1, q) w1]
    · rw [w2]
      omega
    · intro x _ s hs k
      by_cases hx : x.length = 16
      · obtain ⟨v, rfl⟩ : ∃ v : Vector U8 16, x = v.toList := ⟨⟨x.toArray, by simpa using hx⟩, by simp⟩
        evaluate [encDecipher, decStep, src_AES_decrypt, hs, arrayFromSlice_toList]
        refine R.bind_congr fun r => ?_
        rcases r with e | c
        · evaluate [encRes, encDecipherError]
        · evaluate [encRes]
          erw [forLoop_iterZip Val.u8 (fun c => [(.cleartext, bytes c), (.block, bytes v.toList), (.ciphertext, bytes v.toList),
            (.padded_result, bytes s.2), (.blocks, bytes bs), (.self, encDecipher s.1), (.b, bytes b)])
            (fun x y => x ^^^ y) (xs := c.toList) (by simp)]
          · rw [xor_zipUpd]
            evaluate [encDecipher]
          · intro i hi y s k
            evaluate [zipStep]
      · evaluate [encDecipher, decStep, arrayFromSlice, hx]
    · intro x _ s s' hs hx
      rw [decStep] at hx
      obtain ⟨v, h4, hx1⟩ := Counted.bind_ok hx
      obtain ⟨e, h5, hx2⟩ := Counted.bind_ok hx1
      clear hx hx1
      rcases e with e | w
      · cases hx2
      · have hx' : x.length = 16 := by
          unfold arrayFromSlice at h4
          split at h4
          · assumption
          · cases h4
        obtain ⟨v', rfl⟩ : ∃ v : Vector U8 16, x = v.toList := ⟨⟨x.toArray, by simpa using hx'⟩, by simp⟩
        rw [arrayFromSlice_toList] at h4
        cases h4
        cases hx2
        refine ⟨hs, ?_⟩
        evaluate [h5, encDecipher, src_AES_decrypt, hs, encRes, ctxT_erase]
        exact ⟨closed_expr T _ _ noDec_closed (by decide +kernel),
          calls_after _ _ fun _ _ => closed_seq T _ _ noDec_closed (by decide +kernel) (by decide +kernel)⟩

theorem calls_Decipher_write_none (self : Decipher) (b : List U8) (hr : self.aes.round_count ≤ 14) (h16 : self.buffer.block_size = 16)
    (hb : self.buffer.storage.length + b.length ≤ T.isizeMax) (hn : self.aes.round_keys = none)
    (h : 16 ≤ self.buffer.storage.length + b.length) (r : Decipher × Except DecipherError (List U8)) (hw : self.write T b = .ok r) :
    calls DE (callT T crate (F + 65) (d + 6) .aes_cbc_Decipher_write [encDecipher self, bytes b]).1 = 1 := by
  show calls DE (evalT (ctxT T (F + 65) (d + 5)) Gen.fn_aes_cbc_Decipher_write.body [(.self, encDecipher self), (.b, bytes b)]).1 = _
  unfold Decipher.write at hw
  obtain ⟨⟨p, bs⟩, h1, hw⟩ := Counted.bind_ok hw
  have h0 := Pad_write_blocks T _ _ h16 _ _ h1
  rcases bs with _ | bs
  · dsimp only at h0; omega
  · obtain ⟨cs, h2, hw⟩ := Counted.bind_ok hw
    clear hw
    have hl : bs.length ≤ T.isizeMax := by
      have := Pad_write_length T _ _ _ h1 bs rfl
      omega
    have hres : T.reserve 1 bs.length = .ok () := T.reserve_ok (by omega)
    obtain ⟨x, xs, rfl, hx⟩ := chunks_cons bs cs _ h0 h h2
    obtain ⟨v, rfl⟩ : ∃ v : Vector U8 16, x = v.toList := ⟨⟨x.toArray, by simpa using hx⟩, by simp⟩
    have h3 : self.aes.decrypt v = .ok (.error .NotInitialized) := by
      unfold AES.decrypt
      rw [hn]
      rfl
    evaluate [Gen.fn_aes_cbc_Decipher_write, encDecipher, ctxT_erase, src_Pad_write, h1, encOptBytes, hres, h2]
    rw [no_dec T _ _ _ rfl, calls_after _ _ fun _ _ => closed_seq T _ _ noDec_closed (by decide +kernel) (by decide +kernel), List.map_map]
    erw [loop_calls_stop (fun c : List U8 => .seq (c.map .u8)) (fun s : Decipher × List U8 => [(.padded_result, bytes s.2),
        (.blocks, bytes bs), (.self, encDecipher s.1), (.b, bytes b)]) decStep 1 v.toList xs
        (⟨self.aes, self.unpad, self.iv, p⟩, []) (⟨self.aes, self.unpad, self.iv, p⟩, []) (.enum .Err [encDecipherError (.AES .NotInitialized)]) ?_ ?_ ?_]
    · intro k
      evaluate [encDecipher, decStep, src_AES_decrypt, hr, arrayFromSlice_toList, h3, encRes, encDecipherError]
    · rw [decStep, arrayFromSlice_toList]
      show (self.aes.decrypt v >>= _) = _
      rw [h3]
      rfl
    · evaluate [h3, encDecipher, src_AES_decrypt, hr, encRes, ctxT_erase]

end Verif.Source
