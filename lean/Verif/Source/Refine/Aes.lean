import Verif.Source.Sig
import Verif.Model.Aes
import Verif.Source.Refine.Pkcs7

/-! The functions of `src/aes.rs` compute what the model says. -/

set_option linter.constructorNameAsVariable false
set_option backward.isDefEq.respectTransparency false

namespace Verif.Source
open Verif Verif.Aes

variable (T : Target) (F d : Nat)

@[src] theorem const_aes_BLOCK_SIZE : constVal T crate .aes_BLOCK_SIZE = .ok (.usize 16) := rfl
@[src] theorem const_NB : constVal T crate .aes_NB = .ok (.usize 4) := rfl
set_option maxRecDepth 8192 in
@[src] theorem const_SBOX : constVal T crate .aes_SBOX = .ok (bytes SBOX.toList) := rfl
set_option maxRecDepth 8192 in
@[src] theorem const_INV_SBOX : constVal T crate .aes_INV_SBOX = .ok (bytes INV_SBOX.toList) := rfl
@[src] theorem const_RCON : constVal T crate .aes_RCON = .ok (words RCON.toList) := rfl

@[src] theorem src_double (b : U8) :
    call T crate F (d + 1) .aes_double [.u8 b] = .ok (.u8 (double b), []) := by
  rw [call_aes_double]
  by_cases h : b &&& 128#8 = 0#8
  · evaluate [Gen.fn_aes_double, double, Small.shl, h]
  · evaluate [Gen.fn_aes_double, double, Small.shl, h]

theorem mul_loop (G n by_ : Nat) (h : by_ < 2 ^ n) (b power res : U8) :
    ∃ p, whileLoop (eval (ctx T F (d + 1)) (.bin .ne (.var .«by») (.int .usize 0)))
      (eval (ctx T F (d + 1)) (.block
            [.ite (.bin .ne (.bin .and (.var .«by») (.int .usize 1)) (.int .usize 0))
               (.block [.assignOp .xor (.var .res) (.var .power)] .unit)
               .unit,
             .assign (.var .power) (.call .aes_double [.var .power]),
             .assignOp .shr (.var .«by») (.int .i32 1)]
            .unit)) (G + n + 1) [(.power, .u8 power), (.res, .u8 res), (.b, .u8 b), (.«by», .usize by_)] =
      .ok (.val .unit, [(.power, .u8 p), (.res, .u8 (mulLoop n by_ power res)), (.b, .u8 b), (.«by», .usize 0)]) := by
  induction n generalizing by_ power res with
  | zero =>
    obtain rfl : by_ = 0 := by omega
    refine ⟨power, ?_⟩
    rw [whileLoop_false (env' := [(.power, .u8 power), (.res, .u8 res), (.b, .u8 b), (.«by», .usize 0)])]
    · rfl
    · evaluate []
  | succ n ih =>
    by_cases h0 : by_ = 0
    · subst h0
      refine ⟨power, ?_⟩
      rw [whileLoop_false (env' := [(.power, .u8 power), (.res, .u8 res), (.b, .u8 b), (.«by», .usize 0)])]
      · rfl
      · evaluate []
    · obtain ⟨p, hp⟩ := ih (by_ >>> 1) (by rw [Nat.shiftRight_eq_div_pow]; omega) (double power)
        (if (by_ &&& 1) ≠ 0 then res ^^^ power else res)
      refine ⟨p, ?_⟩
      rw [mulLoop, if_pos h0, ← hp, show G + (n + 1) + 1 = (G + n + 1) + 1 from rfl]
      rw [whileLoop_true (env' := [(.power, .u8 power), (.res, .u8 res), (.b, .u8 b), (.«by», .usize by_)])]
      · rcases Nat.mod_two_eq_zero_or_one by_ with h1 | h1
        · evaluate [h1, Small.ushr]
        · evaluate [h1, Small.ushr]
      · evaluate [h0]

@[src] theorem src_mul (b : U8) (by_ : Nat) (h : by_ < 2 ^ 64) :
    call T crate (F + 65) (d + 2) .aes_mul [.u8 b, .usize by_] = .ok (.u8 (mul b by_), []) := by
  obtain ⟨p, hp⟩ := mul_loop T (F + 65) d F 64 by_ h b b 0
  rw [call_aes_mul]
  evaluate [Gen.fn_aes_mul]
  erw [hp]
  evaluate [mul]

@[src] theorem src_sub_word (b : U32) :
    call T crate F (d + 1) .aes_sub_word [.u32 b] = up (sub_word b) >>= fun r => .ok (.u32 r, []) := by
  rw [call_aes_sub_word]
  evaluate [Gen.fn_aes_sub_word, sub_word, Small.shl, Small.shr]

@[src] theorem src_rot_word (b : U32) :
    call T crate F (d + 1) .aes_rot_word [.u32 b] = .ok (.u32 (rot_word b), []) := by
  rw [call_aes_rot_word]
  evaluate [Gen.fn_aes_rot_word, rot_word, Small.shl, Small.shr]

/-- The body of the first loop of `expand_key`. -/
def loadStep (key : List U8) (i : Nat) (w : List U32) : M (List U32) := do
  let k0 ← idx key (4 * i)
  let k1 ← idx key (4 * i + 1)
  let k2 ← idx key (4 * i + 2)
  let k3 ← idx key (4 * i + 3)
  return w ++ [(k0.setWidth 32 <<< 24) ||| (k1.setWidth 32 <<< 16) ||| (k2.setWidth 32 <<< 8) ||| k3.setWidth 32]

/-- The body of the second loop of `expand_key`. -/
def expandStep (nk i : Nat) (w : List U32) : M (List U32) := do
  let temp ← idx w (← T.sub i 1)
  let m ← T.rem i nk
  let temp ← (if m = 0 then do
      let s ← sub_word (rot_word temp)
      let rc ← vidx RCON (← T.sub (i / nk) 1)
      return s ^^^ rc
    else if nk > 6 ∧ m = 4 then
      sub_word temp
    else
      return temp : M U32)
  let prev ← idx w (← T.sub i nk)
  return w ++ [prev ^^^ temp]

theorem expand_model (key : List U8) (n : Nat) :
    expand_key T key n = (forRange 0 (key.length / 4) [] (loadStep key) >>= fun w =>
      forRange (key.length / 4) (NB * (n + 1)) w (expandStep T (key.length / 4))) := rfl

@[src] theorem ElemTy.size_u32 (T : Target) : ElemTy.size T .u32 = 4 := rfl

theorem src_expand_key (key : List U8) (n : Nat) (hk : key.length ≤ 32) (hn : n ≤ 14) :
    call T crate (F + 65) (d + 2) .aes_expand_key [bytes key, .usize n] =
      up (expand_key T key n) >>= fun w => .ok (words w, []) := by
  have hr : T.reserve 4 (4 * (n + 1)) = .ok () := by
    apply T.reserve_ok
    rcases T.bits_cases with hb | hb <;> simp only [Target.isizeMax, hb] <;> omega
  rw [call_aes_expand_key, expand_model]
  evaluate [Gen.fn_aes_expand_key, usizeDiv, Small.mul, Small.add, hr]
  erw [whileLoop_model (s := []) 0 (key.length / 4) (fun i w => [(.i, .usize i), (.w, words w), (.nk, .usize (key.length / 4)),
    (.key, bytes key), (.round_count, .usize n)]) (loadStep key) (by omega)]
  · evaluate [forRange]
    refine R.bind_congr fun w => ?_
    erw [whileLoop_model (s := w) (key.length / 4) (NB * (n + 1) - key.length / 4) (fun i w => [(.i, .usize i), (.w, words w),
      (.nk, .usize (key.length / 4)), (.key, bytes key), (.round_count, .usize n)]) (expandStep T (key.length / 4))
      (by simp only [NB]; omega)]
    · evaluate []
    · intro i h1 h2 s
      evaluate [Small.mul, Small.add, NB]
      omega
    · intro i h1 h2 s k
      simp only [NB] at h2
      generalize hnk : key.length / 4 = nk at *
      have hnk : nk ≤ 8 := by omega
      by_cases h0 : nk = 0
      · evaluate [expandStep, h0, Target.rem]
      by_cases h3 : i % nk = 0
      · evaluate [Small.add, expandStep, Target.rem, h0, h3, usizeDiv]
      by_cases h4 : 6 < nk
      · by_cases h5 : i % nk = 4
        · evaluate [Small.add, expandStep, Target.rem, h0, h4, h5]
        · evaluate [Small.add, expandStep, Target.rem, h0, h3, h4, h5]
      · evaluate [Small.add, expandStep, Target.rem, h0, h3, h4]
  · intro i h1 h2 s
    evaluate []
  · intro i h1 h2 s k
    evaluate [loadStep, Small.mul, Small.add, Small.shl]

/-- Four columns as a value of the source. -/
def encCols (s : List (Vector U8 4)) : Val := .seq (s.map fun c => .seq (c.toList.map .u8))
/-- A `Block` as a value of the source. -/
def encBlock (s : Block) : Val := encCols s.toList

theorem setCol (v : Vector U8 4) (a b c d : U8) : (((v.set 0 a).set 1 b).set 2 c).set 3 d = #v[a, b, c, d] := by
  apply Vector.ext
  intro i hi
  match i, hi with
  | 0, _ | 1, _ | 2, _ | 3, _ => simp

theorem addKeyColumn_set (c : Vector U8 4) (key : U32) :
    addKeyColumn c key = (((c.set 0 (c[0] ^^^ (key >>> 24).setWidth 8)).set 1 (c[1] ^^^ ((key >>> 16) &&& 0xff).setWidth 8)).set 2
      (c[2] ^^^ ((key >>> 8) &&& 0xff).setWidth 8)).set 3 (c[3] ^^^ (key &&& 0xff).setWidth 8) := (setCol _ _ _ _ _).symm

theorem zipUpd_getElem? {α β : Type} (f : α → β → α) (xs : List α) (ys : List β) (i : Nat) :
    (zipUpd f xs ys)[i]? = xs[i]?.map fun x => match ys[i]? with
      | some y => f x y
      | none => x := by
  induction xs generalizing ys i with
  | nil => cases ys <;> simp [zipUpd]
  | cons x xs ih =>
    cases ys with
    | nil => simp [zipUpd]
    | cons y ys => cases i <;> simp [zipUpd, ih]

theorem add_round_key_zip (s : Block) (ks : List U32) : (add_round_key s ks).toList = zipUpd addKeyColumn s.toList ks := by
  apply List.ext_getElem?
  intro i
  rw [zipUpd_getElem?]
  by_cases h : i < 4
  · have h1 : (add_round_key s ks).toList[i]? = some (add_round_key s ks)[i] := by simp [h]
    have h2 : s.toList[i]? = some s[i] := by simp [h]
    rw [h1, h2]
    simp [add_round_key]
    cases ks[i]? <;> rfl
  · have h1 : (add_round_key s ks).toList[i]? = none := by simp; omega
    have h2 : s.toList[i]? = none := by simp; omega
    rw [h1, h2]; rfl

@[src] theorem src_enc_add_round_key (s : Block) (ks : List U32) :
    call T crate F (d + 1) .aes_AESEncrypt_add_round_key [encBlock s, words ks] =
      .ok (.unit, [encBlock (add_round_key s ks)]) := by
  rw [call_aes_AESEncrypt_add_round_key]
  evaluate [Gen.fn_aes_AESEncrypt_add_round_key, encBlock, encCols]
  erw [forLoop_iterZip Val.u32 (fun s => [(.s, encCols s), (.round_key, words ks)]) addKeyColumn (xs := s.toList) (by simp)]
  · evaluate [encCols, add_round_key_zip]
  · intro i hi y s k
    evaluate [encCols, zipStep, Small.shr, vidx, vupd, addKeyColumn_set]

@[src] theorem src_dec_add_round_key (s : Block) (ks : List U32) :
    call T crate F (d + 1) .aes_AESDecrypt_add_round_key [encBlock s, words ks] =
      .ok (.unit, [encBlock (add_round_key s ks)]) := by
  rw [call_aes_AESDecrypt_add_round_key]
  evaluate [Gen.fn_aes_AESDecrypt_add_round_key, encBlock, encCols]
  erw [forLoop_iterZip Val.u32 (fun s => [(.s, encCols s), (.round_key, words ks)]) addKeyColumn (xs := s.toList) (by simp)]
  · evaluate [encCols, add_round_key_zip]
  · intro i hi y s k
    evaluate [encCols, zipStep, Small.shr, vidx, vupd, addKeyColumn_set]

theorem vidx_256 (v : Vector U8 256) (b : U8) : vidx v b.toNat = .ok (v[b.toNat]'b.isLt) := by
  have := b.isLt
  simp [vidx, this]

@[src] theorem src_enc_lookup (b : U8) :
    call T crate F (d + 1) .aes_AESEncrypt_lookup_sbox [.u8 b] = .ok (.u8 (SBOX[b.toNat]'b.isLt), []) := by
  rw [call_aes_AESEncrypt_lookup_sbox]
  evaluate [Gen.fn_aes_AESEncrypt_lookup_sbox, vidx_256]

@[src] theorem src_dec_lookup (b : U8) :
    call T crate F (d + 1) .aes_AESDecrypt_lookup_sbox [.u8 b] = .ok (.u8 (INV_SBOX[b.toNat]'b.isLt), []) := by
  rw [call_aes_AESDecrypt_lookup_sbox]
  evaluate [Gen.fn_aes_AESDecrypt_lookup_sbox, vidx_256]

theorem vmapM_pure {α β : Type} {n : Nat} (f : α → M β) (g : α → β) (h : ∀ a, f a = .ok (g a)) (v : Vector α n) :
    v.mapM f = .ok (v.map g) := by
  have : f = fun a => pure (g a) := funext h
  rw [this]
  exact Vector.mapM_pure g

theorem sub_bytes_pure (f : U8 → M U8) (g : U8 → U8) (h : ∀ a, f a = .ok (g a)) (s : Block) :
    sub_bytes f s = .ok (s.map fun c => c.map g) :=
  vmapM_pure _ _ (fun c => vmapM_pure _ _ h c) s

theorem toList_map' {n : Nat} (f : U8 → U8) (c : Vector U8 n) : c.toList.map f = (c.map f).toList := by
  rw [Vector.toList_map]

@[src] theorem src_enc_sub_bytes (s : Block) :
    call T crate F (d + 2) .aes_AESEncrypt_sub_bytes [encBlock s] =
      up (sub_bytes encLookup s) >>= fun s => .ok (.unit, [encBlock s]) := by
  rw [call_aes_AESEncrypt_sub_bytes, sub_bytes_pure encLookup _ (vidx_256 SBOX)]
  evaluate [Gen.fn_aes_AESEncrypt_sub_bytes, encBlock, encCols]
  erw [forLoop_iterMap (fun s => [(.s, encCols s)]) (fun c : Vector U8 4 => c.map fun b => SBOX[b.toNat]'b.isLt)
    (xs := s.toList) (by simp)]
  · evaluate [encCols, Vector.toList_map]
  · intro i hi s k
    evaluate [encCols]
    refine R.bind_congr fun c => ?_
    erw [forLoop_iterMap (fun c => [(.col, bytes c), (.s, encCols s)]) (fun b : U8 => SBOX[b.toNat]'b.isLt)
      (xs := c.toList) (by simp)]
    · rw [toList_map']
      evaluate [encCols]
    · intro i hi s k
      evaluate [encCols]

@[src] theorem src_dec_sub_bytes (s : Block) :
    call T crate F (d + 2) .aes_AESDecrypt_sub_bytes [encBlock s] =
      up (sub_bytes decLookup s) >>= fun s => .ok (.unit, [encBlock s]) := by
  rw [call_aes_AESDecrypt_sub_bytes, sub_bytes_pure decLookup _ (vidx_256 INV_SBOX)]
  evaluate [Gen.fn_aes_AESDecrypt_sub_bytes, encBlock, encCols]
  erw [forLoop_iterMap (fun s => [(.s, encCols s)]) (fun c : Vector U8 4 => c.map fun b => INV_SBOX[b.toNat]'b.isLt)
    (xs := s.toList) (by simp)]
  · evaluate [encCols, Vector.toList_map]
  · intro i hi s k
    evaluate [encCols]
    refine R.bind_congr fun c => ?_
    erw [forLoop_iterMap (fun c => [(.col, bytes c), (.s, encCols s)]) (fun b : U8 => INV_SBOX[b.toNat]'b.isLt)
      (xs := c.toList) (by simp)]
    · rw [toList_map']
      evaluate [encCols]
    · intro i hi s k
      evaluate [encCols]

@[src] theorem src_enc_mix_column (c : Vector U8 4) :
    call T crate (F + 65) (d + 3) .aes_AESEncrypt_mix_column [bytes c.toList] = .ok (bytes (encMixColumn c).toList, []) := by
  rw [call_aes_AESEncrypt_mix_column]
  evaluate [Gen.fn_aes_AESEncrypt_mix_column, encMixColumn, vidx]

@[src] theorem src_dec_mix_column (c : Vector U8 4) :
    call T crate (F + 65) (d + 3) .aes_AESDecrypt_mix_column [bytes c.toList] = .ok (bytes (decMixColumn c).toList, []) := by
  rw [call_aes_AESDecrypt_mix_column]
  evaluate [Gen.fn_aes_AESDecrypt_mix_column, decMixColumn, vidx]

@[src] theorem src_enc_mix_columns (s : Block) :
    call T crate (F + 65) (d + 4) .aes_AESEncrypt_mix_columns [encBlock s] =
      .ok (.unit, [encBlock (mix_columns encMixColumn s)]) := by
  rw [call_aes_AESEncrypt_mix_columns]
  evaluate [Gen.fn_aes_AESEncrypt_mix_columns, encBlock, encCols]
  erw [forLoop_iterMap (fun s => [(.s, encCols s)]) encMixColumn (xs := s.toList) (by simp)]
  · evaluate [encCols, mix_columns, Vector.toList_map]
  · intro i hi s k
    evaluate [encCols]

@[src] theorem src_dec_mix_columns (s : Block) :
    call T crate (F + 65) (d + 4) .aes_AESDecrypt_mix_columns [encBlock s] =
      .ok (.unit, [encBlock (mix_columns decMixColumn s)]) := by
  rw [call_aes_AESDecrypt_mix_columns]
  evaluate [Gen.fn_aes_AESDecrypt_mix_columns, encBlock, encCols]
  erw [forLoop_iterMap (fun s => [(.s, encCols s)]) decMixColumn (xs := s.toList) (by simp)]
  · evaluate [encCols, mix_columns, Vector.toList_map]
  · intro i hi s k
    evaluate [encCols]

@[src] theorem src_enc_shift_rows (s : Block) :
    call T crate F (d + 1) .aes_AESEncrypt_shift_rows [encBlock s] = .ok (encBlock (encShiftRows s), []) := by
  rw [call_aes_AESEncrypt_shift_rows]
  evaluate [Gen.fn_aes_AESEncrypt_shift_rows, encShiftRows, encBlock, encCols, vidx]

@[src] theorem src_dec_shift_rows (s : Block) :
    call T crate F (d + 1) .aes_AESDecrypt_shift_rows [encBlock s] = .ok (encBlock (decShiftRows s), []) := by
  rw [call_aes_AESDecrypt_shift_rows]
  evaluate [Gen.fn_aes_AESDecrypt_shift_rows, decShiftRows, encBlock, encCols, vidx]

@[src] theorem src_to_block (b : Vector U8 16) :
    call T crate F (d + 1) .aes_to_block [bytes b.toList] = .ok (encBlock (to_block b), []) := by
  rw [call_aes_to_block]
  evaluate [Gen.fn_aes_to_block, to_block, encBlock, encCols, vidx]

@[src] theorem src_from_block (s : Block) :
    call T crate F (d + 1) .aes_from_block [encBlock s] = .ok (bytes (from_block s).toList, []) := by
  rw [call_aes_from_block]
  evaluate [Gen.fn_aes_from_block, from_block, encBlock, encCols, vidx]

/-- An `Option<Vec<u32>>` as a value of the source. -/
def encOptWords : Option (List U32) → Val
  | none => .enum .None []
  | some ws => .enum .Some [words ws]
/-- An `AES` as a value of the source. -/
def encAES (a : AES) : Val := .struct .AES [(.round_count, .usize a.round_count), (.round_keys, encOptWords a.round_keys)]
/-- An `AESError` as a value of the source. -/
def encAESError : AESError → Val
  | .InvalidKeySize => .enum .AESError_InvalidKeySize []
  | .NotInitialized => .enum .AESError_NotInitialized []
/-- `()` as a value of the source. -/
def encUnit (_ : Unit) : Val := .unit

theorem src_AESError_description (e : AESError) :
    call T crate F (d + 1) .aes_AESError_description [encAESError e] = .ok (.str e.description, []) := by
  rw [call_aes_AESError_description]
  cases e <;> evaluate [Gen.fn_aes_AESError_description, encAESError, AESError.description]

/-- src/aes.rs:271-275 `<AESError as Display>::fmt`: the formatter ends up with the displayed text appended. -/
theorem src_AESError_fmt (e : AESError) (s : String) :
    call T crate F (d + 2) .aes_AESError_fmt [encAESError e, .str s] =
      .ok (.enum .Ok [.unit], [.str (s ++ e.display)]) := by
  rw [call_aes_AESError_fmt]
  evaluate [Gen.fn_aes_AESError_fmt, src_AESError_description, AESError.display]

@[src] theorem src_AES_new : call T crate F (d + 1) .aes_AES_new [] = .ok (encAES .new, []) := by
  rw [call_aes_AES_new]
  evaluate [Gen.fn_aes_AES_new, encAES, AES.new, encOptWords]

theorem src_AES_default : call T crate F (d + 2) .aes_AES_default [] = .ok (encAES .default, []) := by
  rw [call_aes_AES_default]
  evaluate [Gen.fn_aes_AES_default, AES.default]

theorem src_AES_init (self : AES) (key : List U8) :
    call T crate (F + 65) (d + 3) .aes_AES_init [encAES self, bytes key] =
      up (self.init T key) >>= fun r => .ok (encRes encAESError encUnit r.2, [encAES r.1]) := by
  rw [call_aes_AES_init]
  by_cases h1 : key.length = 16
  · evaluate [Gen.fn_aes_AES_init, AES.init, encAES, h1, src_expand_key, encRes, encUnit, encOptWords]
  by_cases h2 : key.length = 24
  · evaluate [Gen.fn_aes_AES_init, AES.init, encAES, h2, src_expand_key, encRes, encUnit, encOptWords]
  by_cases h3 : key.length = 32
  · evaluate [Gen.fn_aes_AES_init, AES.init, encAES, h3, src_expand_key, encRes, encUnit, encOptWords]
  evaluate [Gen.fn_aes_AES_init, AES.init, encAES, h1, h2, h3, encRes, encAESError]

theorem src_AES_encrypt (self : AES) (b : Vector U8 16) (h : self.round_count ≤ 14) :
    call T crate (F + 65) (d + 5) .aes_AES_encrypt [encAES self, bytes b.toList] =
      up (self.encrypt b) >>= fun r => .ok (encRes encAESError (fun b => bytes b.toList) r, []) := by
  rw [call_aes_AES_encrypt]
  rcases self with ⟨nr, _ | ks⟩
  · evaluate [Gen.fn_aes_AES_encrypt, AES.encrypt, encAES, encRes, encAESError, encOptWords]
  · simp only at h
    evaluate [Gen.fn_aes_AES_encrypt, AES.encrypt, encAES, encRes, encAESError, encOptWords, NB, forLoop_map]
    refine R.bind_congr fun k0 => ?_
    erw [forLoop_model (fun s : Block => [(.round_keys, words ks), (.state, encBlock s), (.nr, .usize nr),
      (.self, encAES ⟨nr, some ks⟩), (.b, bytes b.toList)]) (forRange 1 nr _ (AES.encRound ks)) rfl]
    · evaluate [Small.mul]
    · intro i hi s k
      simp [src] at hi
      evaluate [AES.encRound, Small.mul, Small.add, NB]

theorem src_AES_decrypt (self : AES) (b : Vector U8 16) (h : self.round_count ≤ 14) :
    call T crate (F + 65) (d + 5) .aes_AES_decrypt [encAES self, bytes b.toList] =
      up (self.decrypt b) >>= fun r => .ok (encRes encAESError (fun b => bytes b.toList) r, []) := by
  rw [call_aes_AES_decrypt]
  rcases self with ⟨nr, _ | ks⟩
  · evaluate [Gen.fn_aes_AES_decrypt, AES.decrypt, encAES, encRes, encAESError, encOptWords]
  · simp only at h
    evaluate [Gen.fn_aes_AES_decrypt, AES.decrypt, encAES, encRes, encAESError, encOptWords, NB, forLoop_map, Small.mul]
    refine R.bind_congr fun k0 => ?_
    erw [forLoop_model (fun s : Block => [(.round_keys, words ks), (.state, encBlock s), (.nr, .usize nr),
      (.self, encAES ⟨nr, some ks⟩), (.b, bytes b.toList)]) (forRangeRev 1 nr _ (AES.decRound ks)) rfl]
    · evaluate []
    · intro i hi s k
      simp [src] at hi
      evaluate [AES.decRound, Small.mul, Small.add, NB]

end Verif.Source
