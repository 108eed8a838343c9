import Verif.Source.TraceLemmas
import Verif.Source.Refine.Aes
import Verif.Proof.KeyRecovery

/-! What is seen of AES: the traces of the functions of src/aes.rs. -/

set_option linter.constructorNameAsVariable false
set_option backward.isDefEq.respectTransparency false
namespace Verif.Source
open Verif Verif.Aes
variable (T : Target) (F d : Nat)

@[src] theorem trace_enc_lookup (b : U8) :
    (callT T crate F (d + 1) .aes_AESEncrypt_lookup_sbox [.u8 b]).1 = [.index b.toNat] := by
  show (evalT (ctxT T F d) Gen.fn_aes_AESEncrypt_lookup_sbox.body [(.b, .u8 b)]).1 = _
  evaluate [Gen.fn_aes_AESEncrypt_lookup_sbox, ctxT_erase]

theorem trace_double (b : U8) :
    (callT T crate F (d + 1) .aes_double [.u8 b]).1 = [.branch (b &&& 128#8 = 0#8), .operand (.i32 1)] := by
  show (evalT (ctxT T F d) Gen.fn_aes_double.body [(.b, .u8 b)]).1 = _
  evaluate [Gen.fn_aes_double, ctxT_erase, Small.shl]

def cellTrace (b : U8) : Trace := [.call .aes_AESEncrypt_lookup_sbox, .index b.toNat]
def colTrace (c : Vector U8 4) : Trace := Event.count 4 :: c.toList.flatMap cellTrace

theorem trace_enc_sub_bytes (s : Block) :
    (callT T crate F (d + 2) .aes_AESEncrypt_sub_bytes [encBlock s]).1 = .count 4 :: s.toList.flatMap colTrace := by
  show (evalT (ctxT T F (d+1)) Gen.fn_aes_AESEncrypt_sub_bytes.body [(.s, encBlock s)]).1 = _
  evaluate [Gen.fn_aes_AESEncrypt_sub_bytes, ctxT_erase, encBlock, encCols]
  erw [loopTr_iterMap (fun s => [(.s, encCols s)]) (fun c : Vector U8 4 => c.map fun b => SBOX[b.toNat]'b.isLt) colTrace
    (xs := s.toList) (by simp)]
  · intro i hi s k
    evaluate [encCols]
    refine R.bind_congr fun c => ?_
    erw [forLoop_iterMap (fun c => [(.col, bytes c), (.s, encCols s)]) (fun b : U8 => SBOX[b.toNat]'b.isLt)
      (xs := c.toList) (by simp)]
    · rw [toList_map']
      evaluate [encCols]
    · intro i hi s k
      evaluate [encCols]
  · intro i s c hc
    evaluate [encCols, hc, ctxT_erase]
    erw [loopTr_iterMap (fun c => [(.col, bytes c), (.s, encCols s)]) (fun b : U8 => SBOX[b.toNat]'b.isLt) cellTrace
      (xs := c.toList) (by simp)]
    · rfl
    · intro i hi s k
      evaluate [encCols]
    · intro i s b hb
      evaluate [hb, ctxT_erase, cellTrace]


theorem trace_encrypt (nr : Nat) (ks : List U32) (b : Vector U8 16) (hk : 4 ≤ ks.length) (hr : 2 ≤ nr) :
    ∃ rest, (callT T crate F (d + 3) .aes_AES_encrypt [encAES ⟨nr, some ks⟩, bytes b.toList]).1 =
      .call .aes_to_block :: ((callT T crate F (d + 2) .aes_to_block [bytes b.toList]).1 ++
        .branch true :: .range 0 4 :: .call .aes_AESEncrypt_add_round_key ::
          ((callT T crate F (d + 2) .aes_AESEncrypt_add_round_key [encBlock (to_block b), words (ks.take 4)]).1 ++
            .count (nr - 1) :: .call .aes_AESEncrypt_sub_bytes :: .count 4 ::
              ((add_round_key (to_block b) (ks.take 4)).toList.flatMap colTrace ++ rest))) := by
  show ∃ rest, (evalT (ctxT T F (d+2)) Gen.fn_aes_AES_encrypt.body [(.self, encAES ⟨nr, some ks⟩), (.b, bytes b.toList)]).1 = _
  have h4 : slice ks 0 4 = .ok (ks.take 4) := by simp [slice, hk]
  obtain ⟨m, rfl⟩ := Nat.exists_eq_add_of_le' hr
  have hl : (List.range' 1 (m + 1)).map Val.usize = .usize 1 :: (List.range' 2 m).map .usize := by rw [List.range'_succ]; rfl
  evaluate [Gen.fn_aes_AES_encrypt, ctxT_erase, encAES, encOptWords, h4, loopTr_cons, hl, trace_enc_sub_bytes]


def subTrace (w : U32) : Trace :=
  [.operand (.i32 24), .operand (.i32 16), .operand (.i32 8), .index (w >>> 24).toNat, .operand (.i32 24), .index ((w >>> 16) &&& 255#32).toNat, .operand (.i32 16),
   .index ((w >>> 8) &&& 255#32).toNat, .operand (.i32 8), .index (w &&& 255#32).toNat]

theorem trace_sub_word (w : U32) :
    (callT T crate F (d + 1) .aes_sub_word [.u32 w]).1 = subTrace w := by
  show (evalT (ctxT T F d) Gen.fn_aes_sub_word.body [(.b, .u32 w)]).1 = _
  have v0 : vidx SBOX (w.toNat >>> 24) = .ok _ := vidx_ok _ _ (by
    have := w.isLt; rw [Nat.shiftRight_eq_div_pow]; omega)
  have v1 (n : Nat) : vidx SBOX (n &&& 255) = .ok _ := vidx_ok _ _ (by
    have : n &&& 255 ≤ 255 := Nat.and_le_right
    omega)
  evaluate [Gen.fn_aes_sub_word, ctxT_erase, Small.shl, Small.shr, subTrace, v0, v1]

theorem trace_rot_word (w : U32) :
    (callT T crate F (d + 1) .aes_rot_word [.u32 w]).1 = [.operand (.i32 8), .operand (.i32 24)] := by
  show (evalT (ctxT T F d) Gen.fn_aes_rot_word.body [(.b, .u32 w)]).1 = _
  evaluate [Gen.fn_aes_rot_word, ctxT_erase, Small.shl, Small.shr]



def loadTrace (i : Nat) : Trace :=
  [.index (4 * i), .operand (.i32 24), .index (4 * i + 1), .operand (.i32 16), .index (4 * i + 2), .operand (.i32 8), .index (4 * i + 3),
    .sizes [i]]
def expandTrace (nk i : Nat) (t : U32) : Trace :=
  if i % nk = 0 then [.index (i - 1), .operand (.usize i), .operand (.usize nk), .branch true, .call .aes_rot_word, .operand (.i32 8), .operand (.i32 24), .call .aes_sub_word] ++ subTrace (rot_word t) ++
     [.operand (.usize i), .operand (.usize nk), .index (i / nk - 1), .index (i - nk), .sizes [i]]
  else [.index (i-1), .operand (.usize i), .operand (.usize nk), .branch false, .branch (decide (6 < nk))] ++
    (if nk > 6 then [.operand (.usize i), .operand (.usize nk), .branch (decide (i % nk = 4)) ] ++ (if i % nk = 4 then .call .aes_sub_word :: subTrace t else []) else [.branch false]) ++
    [.index (i - nk), .sizes [i]]

/-- The body of the first loop of `expand_key`. -/
def loadBody : Expr :=
  .block
            [.mutPrim .push (.var .w)
               [.bin .or
                  (.bin .or
                     (.bin .or
                        (.bin .shl (.from .u32 (.index (.var .key) (.bin .mul (.int .usize 4) (.var .i)))) (.int .i32 24))
                        (.bin .shl
                           (.from .u32 (.index (.var .key) (.bin .add (.bin .mul (.int .usize 4) (.var .i)) (.int .usize 1))))
                           (.int .i32 16)))
                     (.bin .shl
                        (.from .u32 (.index (.var .key) (.bin .add (.bin .mul (.int .usize 4) (.var .i)) (.int .usize 2))))
                        (.int .i32 8)))
                  (.from .u32 (.index (.var .key) (.bin .add (.bin .mul (.int .usize 4) (.var .i)) (.int .usize 3))))],
             .assignOp .add (.var .i) (.int .usize 1)]
            .unit
/-- The body of the second loop of `expand_key`. -/
def expandBody : Expr :=
  .block
            [.let (.var .temp) (.index (.var .w) (.bin .sub (.var .i) (.int .usize 1))),
             .ite (.bin .eq (.bin .rem (.var .i) (.var .nk)) (.int .usize 0))
               (.block
                  [.assign (.var .temp)
                     (.bin .xor (.call .aes_sub_word [.call .aes_rot_word [.var .temp]])
                        (.index (.const .aes_RCON) (.bin .sub (.bin .div (.var .i) (.var .nk)) (.int .usize 1))))]
                  .unit)
               (.ite
                  (.andAlso (.bin .gt (.var .nk) (.int .usize 6))
                     (.bin .eq (.bin .rem (.var .i) (.var .nk)) (.int .usize 4)))
                  (.block [.assign (.var .temp) (.call .aes_sub_word [.var .temp])] .unit)
                  .unit),
             .mutPrim .push (.var .w)
               [.bin .xor (.index (.var .w) (.bin .sub (.var .i) (.var .nk))) (.var .temp)],
             .assignOp .add (.var .i) (.int .usize 1)]
            .unit

def expandCond : Expr :=
  .bin .lt (.var .i) (.bin .mul (.const .aes_NB) (.bin .add (.var .round_count) (.int .usize 1)))

/-- The variables of `expand_key` after `i` words. -/
def expandEnv (key : List U8) (n nk : Nat) (ws : List U32) (i : Nat) : Env :=
  [(.i, .usize i), (.w, words (ws.take i)), (.nk, .usize nk), (.key, bytes key), (.round_count, .usize n)]

section
variable (key : List U8) (n nk : Nat) (ws : List U32) (i : Nat)

theorem load_cond : eval (ctx T F d) (.bin .lt (.var .i) (.var .nk)) (expandEnv key n nk ws i) =
    .ok (.val (.bool (decide (i < nk))), expandEnv key n nk ws i) := by
  unfold expandEnv
  evaluate []

theorem load_step (hi : i < 8) (h : loadStep key i (ws.take i) = .ok (ws.take (i + 1))) (k : Env → R (Ctl Val × Env)) :
    nextIter (inScope (eval (ctx T F d) loadBody) (expandEnv key n nk ws i)) k = k (expandEnv key n nk ws (i + 1)) := by
  have : nextIter (inScope (eval (ctx T F d) loadBody) (expandEnv key n nk ws i)) k = up (loadStep key i (ws.take i)) >>= fun w =>
      k [(.i, .usize (i + 1)), (.w, words w), (.nk, .usize nk), (.key, bytes key), (.round_count, .usize n)] := by
    unfold expandEnv
    evaluate [loadStep, loadBody, Small.mul, Small.add, Small.shl]
  rw [this, h]
  rfl

theorem load_seen (h : 4 * i + 3 < key.length) (hi : i < 8) (hw : i ≤ ws.length) :
    (evalT (ctxT T F d) loadBody (expandEnv key n nk ws i)).1 = loadTrace i := by
  have l : (ws.take i).length = i := by rw [List.length_take]; omega
  have i0 : idx key (4 * i) = .ok _ := idx_ok _ _ (by omega)
  have i1 : idx key (4 * i + 1) = .ok _ := idx_ok _ _ (by omega)
  have i2 : idx key (4 * i + 2) = .ok _ := idx_ok _ _ (by omega)
  have i3 : idx key (4 * i + 3) = .ok _ := idx_ok _ _ (by omega)
  unfold expandEnv
  evaluate [Small.mul, Small.add, Small.shl, ctxT_erase, i0, i1, i2, i3, l, loadTrace, loadBody]

theorem expand_cond (hn : n ≤ 14) : eval (ctx T F d) expandCond (expandEnv key n nk ws i) =
    .ok (.val (.bool (decide (i < 4 * (n + 1)))), expandEnv key n nk ws i) := by
  unfold expandEnv
  evaluate [expandCond, Small.mul, Small.add, NB]

theorem expand_cond_seen (hn : n ≤ 14) : (evalT (ctxT T F d) expandCond (expandEnv key n nk ws i)).1 = [] := by
  unfold expandEnv
  evaluate [expandCond, Small.mul, Small.add, NB, ctxT_erase]

theorem expand_step (h0' : ¬ nk = 0) (hi : i < 60) (h : expandStep T nk i (ws.take i) = .ok (ws.take (i + 1))) (k : Env → R (Ctl Val × Env)) :
    nextIter (inScope (eval (ctx T F (d + 1)) expandBody) (expandEnv key n nk ws i)) k = k (expandEnv key n nk ws (i + 1)) := by
  have : nextIter (inScope (eval (ctx T F (d + 1)) expandBody) (expandEnv key n nk ws i)) k =
      up (expandStep T nk i (ws.take i)) >>= fun w =>
      k [(.i, .usize (i + 1)), (.w, words w), (.nk, .usize nk), (.key, bytes key), (.round_count, .usize n)] := by
    unfold expandEnv
    by_cases h3 : i % nk = 0
    · evaluate [Small.add, expandStep, expandBody, Target.rem, h0', h3, usizeDiv]
    by_cases h4 : 6 < nk
    · by_cases h5 : i % nk = 4
      · evaluate [Small.add, expandStep, expandBody, Target.rem, h0', h4, h5]
      · evaluate [Small.add, expandStep, expandBody, Target.rem, h0', h3, h4, h5]
    · evaluate [Small.add, expandStep, expandBody, Target.rem, h0', h3, h4]
  rw [this, h]
  rfl

theorem expand_seen (h0' : ¬ nk = 0) (h1 : nk ≤ i) (hi : i < 60) (hi' : i < 11 * nk) (hw : i ≤ ws.length) :
    (evalT (ctxT T F (d + 1)) expandBody (expandEnv key n nk ws i)).1 = expandTrace nk i (ws.getD (i - 1) 0) := by
  have l : (ws.take i).length = i := by rw [List.length_take]; omega
  have j0 : idx (ws.take i) (i - 1) = .ok (ws.getD (i - 1) 0) := by
    rw [idx_ok _ _ (by omega)]
    simp [List.getElem?_eq_getElem (show i - 1 < ws.length by omega)]
  have j1 : idx (ws.take i) (i - nk) = .ok _ := idx_ok _ _ (by omega)
  have s0 : 1 ≤ i := by omega
  have s1 (w : U32) : ∃ x, sub_word w = .ok x := ⟨_, (sub_word_ok w).choose_spec.1⟩
  have hq : 1 ≤ i / nk := (Nat.one_le_div_iff (by omega)).2 h1
  have hq' : i / nk < 11 := Nat.div_lt_of_lt_mul (by rw [Nat.mul_comm]; omega)
  have hr : vidx RCON (i / nk - 1) = .ok _ := vidx_ok _ _ (show i / nk - 1 < 10 by omega)
  have t1 := T.sub_ok s0
  have t2 := T.sub_ok h1
  have t3 := T.sub_ok hq
  generalize ws.getD (i - 1) 0 = t at *
  unfold expandEnv
  by_cases h3 : i % nk = 0
  · obtain ⟨x, hx⟩ := s1 (rot_word t)
    evaluate [Small.add, expandBody, expandTrace, Target.rem, h0', h3, usizeDiv, ctxT_erase, trace_sub_word, trace_rot_word, t1, t2, t3, j0, j1, hr, hx, l]
  obtain ⟨x, hx⟩ := s1 t
  by_cases h4 : 6 < nk
  · by_cases h5 : i % nk = 4
    · evaluate [Small.add, expandBody, expandTrace, Target.rem, h0', h3, h4, h5, usizeDiv, ctxT_erase, trace_sub_word, trace_rot_word, t1, t2, j0, j1, hx, l]
    · evaluate [Small.add, expandBody, expandTrace, Target.rem, h0', h3, h4, h5, usizeDiv, ctxT_erase, trace_sub_word, trace_rot_word, t1, t2, j0, j1, hx, l]
  · evaluate [Small.add, expandBody, expandTrace, Target.rem, h0', h3, h4, usizeDiv, ctxT_erase, trace_sub_word, trace_rot_word, t1, t2, j0, j1, hx, l]

theorem trace_expand (hk : key.length = 4 * nk) (hnk : 4 ≤ nk) (hnk' : nk ≤ 8) (hn : n ≤ 14)
    (hl : ws.length = 4 * (n + 1)) (hle : nk ≤ 4 * (n + 1)) (hr : 4 * (n + 1) ≤ 11 * nk) 
    (h0 : ∀ i, i < nk → loadStep key i (ws.take i) = .ok (ws.take (i + 1)))
    (h1 : ∀ i, nk ≤ i → i < 4 * (n + 1) → expandStep T nk i (ws.take i) = .ok (ws.take (i + 1))) :
    (callT T crate (F + 65) (d + 2) .aes_expand_key [bytes key, .usize n]).1 =
      [.sizes [4 * nk], .operand (.usize (4 * nk)), .operand (.usize 4), .sizes [4 * (n + 1)]] ++
      ((List.range' 0 nk).flatMap (fun i => .branch true :: loadTrace i) ++ .branch false ::
       ((List.range' nk (4 * (n + 1) - nk)).flatMap (fun i => .branch true :: expandTrace nk i (ws.getD (i - 1) 0)) ++
         [.branch false])) := by
  show (evalT (ctxT T (F + 65) (d+1)) Gen.fn_aes_expand_key.body [(.key, bytes key), (.round_count, .usize n)]).1 = _
  have hr : T.reserve 4 (4 * (n + 1)) = .ok () := by
    apply T.reserve_ok
    rcases T.bits_cases with hb | hb <;> simp only [Target.isizeMax, hb] <;> omega
  have hd : 4 * nk / 4 = nk := by omega
  evaluate [Gen.fn_aes_expand_key, ctxT_erase, usizeDiv, Small.mul, Small.add, hr, hk, hd]
  have e0 : Val.seq [] = words (ws.take 0) := rfl
  rw [e0]
  erw [whileTr_count 0 nk (expandEnv key n nk ws) (fun _ => []) loadTrace (by show _ < F + 65; omega),
    whileLoop_count 0 nk (expandEnv key n nk ws) (by omega)]
  · rw [Nat.zero_add]
    unfold expandEnv
    evaluate [ctxT_erase]
    erw [whileTr_count nk (4 * (n + 1) - nk) (expandEnv key n nk ws) (fun _ => []) (fun i => expandTrace nk i (ws.getD (i - 1) 0))
      (by show _ < F + 65; omega), whileLoop_count nk (4 * (n + 1) - nk) (expandEnv key n nk ws) (by omega)]
    · unfold expandEnv
      evaluate []
    · intro i _ _
      rw [show nk + (4 * (n + 1) - nk) = 4 * (n + 1) by omega]
      exact expand_cond T _ _ key n nk ws i hn
    · intro i h2 h3 k
      exact expand_step T _ _ key n nk ws i (by omega) (by omega) (h1 i h2 (by omega)) k
    · intro i _ _
      rw [show nk + (4 * (n + 1) - nk) = 4 * (n + 1) by omega]
      exact expand_cond T _ _ key n nk ws i hn
    · intro i h2 h3 k
      exact expand_step T _ _ key n nk ws i (by omega) (by omega) (h1 i h2 (by omega)) k
    · intro i _ _
      exact expand_cond_seen T _ _ key n nk ws i hn
    · intro i _ _
      exact expand_seen T _ _ key n nk ws i (by omega) (by omega) (by omega) (by omega) (by omega)
  · intro i _ _
    rw [Nat.zero_add]
    exact load_cond T _ _ key n nk ws i
  · intro i h2 h3 k
    exact load_step T _ _ key n nk ws i (by omega) (h0 i (by omega)) k
  · intro i _ _
    rw [Nat.zero_add]
    exact load_cond T _ _ key n nk ws i
  · intro i h2 h3 k
    exact load_step T _ _ key n nk ws i (by omega) (h0 i (by omega)) k
  · intro i h1 h2
    unfold expandEnv
    evaluate []
  · intro i h1 h2
    exact load_seen T _ _ key n nk ws i (by omega) (by omega) (by omega)
end


/-! ### The steps of the key expansion, by the finished schedule -/

section
open Spec.Aes
theorem wordByte_inj {a b : U32} (h : wordByte a = wordByte b) : a = b := by
  apply BitVec.eq_of_getLsbD_eq
  intro i hi
  have e := congrArg (·.getLsbD (i % 8)) (congrFun h ⟨3 - i / 8, by omega⟩)
  simp only [wordByte, BitVec.getLsbD_setWidth, BitVec.getLsbD_ushiftRight] at e
  rw [show 24 - 8 * (3 - i / 8) + i % 8 = i by omega] at e
  simpa [Nat.mod_lt] using e

theorem take_snoc {ws : List U32} {i : Nat} (h : i < ws.length) : ws.take (i + 1) = ws.take i ++ [ws[i]] := by
  rw [List.take_add_one]; simp [h]

section
variable {nk n : Nat} {key : List U8} {ws : List U32} (hs : IsSchedule nk key n ws) {i : Nat}
include hs

theorem IsSchedule.take (h : i ≤ n) : IsSchedule nk key i (ws.take i) := by
  refine ⟨by rw [List.length_take, hs.1]; omega, fun j hj => ?_⟩
  rw [List.getElem_take]
  exact hs.2 j _

theorem schedule_load (hk : key.length = 4 * nk) (hi : i < nk) (hn : i < n) :
    loadStep key i (ws.take i) = .ok (ws.take (i + 1)) := by
  have hl : i < ws.length := by rw [hs.1]; omega
  unfold loadStep
  rw [idx_ok _ _ (by omega), idx_ok _ _ (by omega), idx_ok _ _ (by omega), idx_ok _ _ (by omega), take_snoc hl]
  simp only [ok_bind, pure_eq_ok]
  congr 3
  apply wordByte_inj
  rw [hs.2 i hl, wordByte_or, keyWord, dif_pos (Or.inr hi)]
  funext r
  simp only [getElem_byteAt]
  revert r
  exact forall_fin4 rfl rfl rfl rfl

theorem schedule_expand (T : Target) (hnk : 1 ≤ nk) (hi : nk ≤ i) (hn : i < n) (hr : i < 11 * nk) :
    expandStep T nk i (ws.take i) = .ok (ws.take (i + 1)) := by
  have hl : i < ws.length := by rw [hs.1]; omega
  have hw := IsSchedule.take hs (Nat.le_of_lt hn)
  rw [take_snoc hl]
  generalize ws.take i = w at *
  unfold expandStep
  rw [T.sub_ok (show 1 ≤ i by omega)]
  simp only [ok_bind]
  rw [idx_ok _ _ (by rw [hw.1]; omega), T.rem_ok (show nk ≠ 0 by omega)]
  simp only [ok_bind]
  rw [T.sub_ok hi]
  simp only [ok_bind]
  rw [idx_ok _ _ (by rw [hw.1]; omega)]
  simp only [ok_bind]
  have hl : i - 1 < w.length := by rw [hw.1]; omega
  have ht := hw.2 (i - 1) hl
  have hp := hw.2 (i - nk) (by rw [hw.1]; omega)
  have key_i : keyWord nk key i = xorWord (keyWord nk key (i - nk))
      (if i % nk = 0 then xorWord (subWord (rotWord (keyWord nk key (i - 1)))) (rcon (i / nk))
       else if nk > 6 ∧ i % nk = 4 then subWord (keyWord nk key (i - 1)) else keyWord nk key (i - 1)) := by
    rw [keyWord, dif_neg (by omega)]
  suffices ∃ t, (if i % nk = 0 then do
        let s ← sub_word (rot_word w[i - 1])
        let rc ← vidx RCON (← T.sub (i / nk) 1)
        return s ^^^ rc
      else if nk > 6 ∧ i % nk = 4 then
        sub_word w[i - 1]
      else
        return w[i - 1] : M U32) = .ok t ∧ wordByte t = (if i % nk = 0 then xorWord (subWord (rotWord (keyWord nk key (i - 1)))) (rcon (i / nk))
       else if nk > 6 ∧ i % nk = 4 then subWord (keyWord nk key (i - 1)) else keyWord nk key (i - 1)) by
    obtain ⟨t, h3, h4⟩ := this
    rw [h3]
    simp only [ok_bind, pure_eq_ok]
    congr 3
    apply wordByte_inj
    rw [wordByte_xor, h4, hp, ← key_i, hs.2]
  by_cases h0 : i % nk = 0
  · rw [if_pos h0, if_pos h0]
    obtain ⟨s, hs1, hs2⟩ := sub_word_ok (rot_word w[i - 1])
    have hq : 1 ≤ i / nk := (Nat.one_le_div_iff (by omega)).2 hi
    have hq' : i / nk < 11 := Nat.div_lt_of_lt_mul (by rw [Nat.mul_comm]; omega)
    rw [hs1, T.sub_ok hq]
    simp only [ok_bind]
    rw [vidx_ok _ _ (show i / nk - 1 < 10 by omega)]
    refine ⟨_, rfl, ?_⟩
    rw [wordByte_xor, hs2, rot_word_ok, ht, RCON_ok _ (by omega), show i / nk - 1 + 1 = i / nk by omega]
  · rw [if_neg h0, if_neg h0]
    by_cases h6 : nk > 6 ∧ i % nk = 4
    · rw [if_pos h6, if_pos h6]
      obtain ⟨s, hs1, hs2⟩ := sub_word_ok w[i - 1]
      exact ⟨s, hs1, by rw [hs2, ht]⟩
    · rw [if_neg h6, if_neg h6]
      exact ⟨_, rfl, ht⟩
end
end

/-- What is seen of `init` before the key expansion. -/
def initTrace : Nat → Trace
  | 16 => [.sizes [16], .branch true]
  | 24 => [.sizes [24], .branch false, .branch true]
  | _ => [.sizes [32], .branch false, .branch false, .branch true]

theorem trace_init (a : AES) (key : List U8) (nr : Nat)
    (hk : key.length = 16 ∧ nr = 10 ∨ key.length = 24 ∧ nr = 12 ∨ key.length = 32 ∧ nr = 14) :
    (callT T crate (F + 65) (d + 3) .aes_AES_init [encAES a, bytes key]).1 =
      initTrace key.length ++ .call .aes_expand_key :: (callT T crate (F + 65) (d + 2) .aes_expand_key [bytes key, .usize nr]).1 := by
  show (evalT (ctxT T (F + 65) (d + 2)) Gen.fn_aes_AES_init.body [(.self, encAES a), (.key, bytes key)]).1 = _
  obtain ⟨ws, e, _⟩ := expand_key_ok T key (key.length / 4) nr (by omega) (by omega) (by omega) (by omega)
  rcases hk with ⟨h, rfl⟩ | ⟨h, rfl⟩ | ⟨h, rfl⟩ <;>
    evaluate [Gen.fn_aes_AES_init, encAES, h, src_expand_key, encOptWords, ctxT_erase, initTrace, e]

/-! ### Decryption -/

@[src] theorem trace_dec_lookup (b : U8) :
    (callT T crate F (d + 1) .aes_AESDecrypt_lookup_sbox [.u8 b]).1 = [.index b.toNat] := by
  show (evalT (ctxT T F d) Gen.fn_aes_AESDecrypt_lookup_sbox.body [(.b, .u8 b)]).1 = _
  evaluate [Gen.fn_aes_AESDecrypt_lookup_sbox, ctxT_erase]

def decCellTrace (b : U8) : Trace := [.call .aes_AESDecrypt_lookup_sbox, .index b.toNat]
def decColTrace (c : Vector U8 4) : Trace := Event.count 4 :: c.toList.flatMap decCellTrace

theorem trace_dec_sub_bytes (s : Block) :
    (callT T crate F (d + 2) .aes_AESDecrypt_sub_bytes [encBlock s]).1 = .count 4 :: s.toList.flatMap decColTrace := by
  show (evalT (ctxT T F (d+1)) Gen.fn_aes_AESDecrypt_sub_bytes.body [(.s, encBlock s)]).1 = _
  evaluate [Gen.fn_aes_AESDecrypt_sub_bytes, ctxT_erase, encBlock, encCols]
  erw [loopTr_iterMap (fun s => [(.s, encCols s)]) (fun c : Vector U8 4 => c.map fun b => INV_SBOX[b.toNat]'b.isLt) decColTrace
    (xs := s.toList) (by simp)]
  · intro i hi s k
    evaluate [encCols]
    refine R.bind_congr fun c => ?_
    erw [forLoop_iterMap (fun c => [(.col, bytes c), (.s, encCols s)]) (fun b : U8 => INV_SBOX[b.toNat]'b.isLt)
      (xs := c.toList) (by simp)]
    · rw [toList_map']
      evaluate [encCols]
    · intro i hi s k
      evaluate [encCols]
  · intro i s c hc
    evaluate [encCols, hc, ctxT_erase]
    erw [loopTr_iterMap (fun c => [(.col, bytes c), (.s, encCols s)]) (fun b : U8 => INV_SBOX[b.toNat]'b.isLt) decCellTrace
      (xs := c.toList) (by simp)]
    · rfl
    · intro i hi s k
      evaluate [encCols]
    · intro i s b hb
      evaluate [hb, ctxT_erase, decCellTrace]

theorem trace_decrypt (nr : Nat) (ks : List U32) (b : Vector U8 16) (hk : ks.length = 4 * (nr + 1)) (hr : 2 ≤ nr) (hr' : nr ≤ 14) :
    ∃ rest, (callT T crate F (d + 3) .aes_AES_decrypt [encAES ⟨nr, some ks⟩, bytes b.toList]).1 =
      .call .aes_to_block :: ((callT T crate F (d + 2) .aes_to_block [bytes b.toList]).1 ++
        .branch true :: .range (4 * nr) (4 * (nr + 1)) :: .call .aes_AESDecrypt_add_round_key ::
          ((callT T crate F (d + 2) .aes_AESDecrypt_add_round_key [encBlock (to_block b), words (ks.drop (4 * nr))]).1 ++
            .sizes [nr - 1] :: .count (nr - 1) :: .call .aes_AESDecrypt_shift_rows ::
          ((callT T crate F (d + 2) .aes_AESDecrypt_shift_rows [encBlock (add_round_key (to_block b) (ks.drop (4 * nr)))]).1 ++
             .call .aes_AESDecrypt_sub_bytes :: .count 4 ::
              ((decShiftRows (add_round_key (to_block b) (ks.drop (4 * nr)))).toList.flatMap decColTrace ++ rest)))) := by
  show ∃ rest, (evalT (ctxT T F (d+2)) Gen.fn_aes_AES_decrypt.body [(.self, encAES ⟨nr, some ks⟩), (.b, bytes b.toList)]).1 = _
  have h4 : slice ks (nr * 4) ((nr + 1) * 4) = .ok (ks.drop (nr * 4)) := by
    rw [show (nr + 1) * 4 = ks.length by omega]; simp [slice]; omega
  obtain ⟨m, rfl⟩ := Nat.exists_eq_add_of_le' hr
  have hl : ((List.range' 1 (m + 1)).map Val.usize).reverse = .usize (m + 1) :: ((List.range' 1 m).map .usize).reverse := by
    rw [List.range'_concat]; simp; omega
  evaluate [Gen.fn_aes_AES_decrypt, ctxT_erase, encAES, encOptWords, h4, loopTr_cons, hl, trace_dec_sub_bytes, Small.mul, hk, Nat.mul_comm 4]
end Verif.Source
