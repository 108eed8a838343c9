import Verif.Proof.AesField
import Verif.Proof.Sha256Stream
import Verif.Proof.Salsa20

/-! AES: the model against FIPS-197. -/

namespace Verif.Aes
open Verif
open Spec.Aes (State Word4 sbox invSbox gmul load store subBytes shiftRows mixColumns addRoundKey subWord rotWord rcon
  xorWord keyWord rounds cipher invShiftRows invSubBytes invMixColumns invRounds invCipher)

/-! ### Words -/

/-- Byte `r` of a word, most significant first. -/
def wordByte (w : U32) : Word4 := fun r => (w >>> (24 - 8 * r.val)).setWidth 8

theorem forall_fin4 {P : Fin 4 → Prop} (h0 : P 0) (h1 : P 1) (h2 : P 2) (h3 : P 3) (r : Fin 4) : P r := by
  match r with
  | 0 => exact h0
  | 1 => exact h1
  | 2 => exact h2
  | 3 => exact h3

theorem v4_0 {α : Type} (a b c d : α) : #v[a, b, c, d][(0 : Fin 4)] = a := rfl
theorem v4_1 {α : Type} (a b c d : α) : #v[a, b, c, d][(1 : Fin 4)] = b := rfl
theorem v4_2 {α : Type} (a b c d : α) : #v[a, b, c, d][(2 : Fin 4)] = c := rfl
theorem v4_3 {α : Type} (a b c d : α) : #v[a, b, c, d][(3 : Fin 4)] = d := rfl

theorem wordByte_or (b0 b1 b2 b3 : U8) :
    wordByte ((b0.setWidth 32 <<< 24) ||| (b1.setWidth 32 <<< 16) ||| (b2.setWidth 32 <<< 8) ||| b3.setWidth 32)
      = fun r => #v[b0, b1, b2, b3][r] := by
  rw [Sha256.be32_eq]
  funext r
  have h0 := b0.isLt; have h1 := b1.isLt; have h2 := b2.isLt; have h3 := b3.isLt
  have key (k : Nat) : ((b0 ++ b1 ++ b2 ++ b3 : BitVec 32) >>> k).setWidth 8
      = BitVec.ofNat 8 ((((b0.toNat * 2 ^ 8 + b1.toNat) * 2 ^ 8 + b2.toNat) * 2 ^ 8 + b3.toNat) / 2 ^ k) := by
    rw [Sha256.byte_shift, Salsa20.append_toNat, Salsa20.append_toNat, Salsa20.append_toNat]
  revert r
  refine forall_fin4 ?_ ?_ ?_ ?_
  · change ((b0 ++ b1 ++ b2 ++ b3 : BitVec 32) >>> 24).setWidth 8 = b0
    rw [key]; apply BitVec.eq_of_toNat_eq; rw [BitVec.toNat_ofNat]; omega
  · change ((b0 ++ b1 ++ b2 ++ b3 : BitVec 32) >>> 16).setWidth 8 = b1
    rw [key]; apply BitVec.eq_of_toNat_eq; rw [BitVec.toNat_ofNat]; omega
  · change ((b0 ++ b1 ++ b2 ++ b3 : BitVec 32) >>> 8).setWidth 8 = b2
    rw [key]; apply BitVec.eq_of_toNat_eq; rw [BitVec.toNat_ofNat]; omega
  · change ((b0 ++ b1 ++ b2 ++ b3 : BitVec 32) >>> 0).setWidth 8 = b3
    rw [key]; apply BitVec.eq_of_toNat_eq; rw [BitVec.toNat_ofNat]; omega

theorem byte_mask (w : U32) (k : Nat) : (w >>> k) &&& 0xff = ((w >>> k).setWidth 8).setWidth 32 := by
  apply BitVec.eq_of_getLsbD_eq
  intro i hi
  have : (0xff : U32) = (BitVec.allOnes 8).setWidth 32 := by decide
  rw [this]
  simp only [BitVec.getLsbD_and, BitVec.getLsbD_setWidth, BitVec.getLsbD_allOnes]
  by_cases h : i < 8 <;> simp [h, hi]

theorem byte_top (w : U32) : w >>> 24 = ((w >>> 24).setWidth 8).setWidth 32 := by
  apply BitVec.eq_of_toNat_eq
  have := w.isLt
  simp [Nat.shiftRight_eq_div_pow]
  omega

theorem vidx_SBOX (b : U8) : vidx SBOX b.toNat = .ok (sbox b) := by
  rw [vidx_ok _ _ b.isLt, SBOX_eq]

theorem sub_word_ok (w : U32) : ∃ w', sub_word w = .ok w' ∧ wordByte w' = subWord (wordByte w) := by
  have e0 := byte_top w
  have e1 := byte_mask w 16
  have e2 := byte_mask w 8
  have e3 : w &&& (0xff : U32) = ((w >>> 0).setWidth 8).setWidth 32 := by
    have := byte_mask w 0
    rwa [show w >>> 0 = w by simp] at this ⊢
  have n (b : U8) : (b.setWidth 32).toNat = b.toNat := by
    simp; omega
  have n0 : (w >>> 24).toNat = ((w >>> 24).setWidth 8 : U8).toNat := by
    rw [← n, ← e0]
  refine ⟨((sbox ((w >>> 24).setWidth 8)).setWidth 32 <<< 24) ||| ((sbox ((w >>> 16).setWidth 8)).setWidth 32 <<< 16)
    ||| ((sbox ((w >>> 8).setWidth 8)).setWidth 32 <<< 8) ||| (sbox ((w >>> 0).setWidth 8)).setWidth 32, ?_, ?_⟩
  · unfold sub_word
    rw [e1, e2, e3]
    simp only [n, n0]
    simp only [vidx_SBOX, ok_bind, pure_eq_ok]
  · rw [wordByte_or]
    funext r
    revert r
    exact forall_fin4 rfl rfl rfl rfl

theorem rot_word_ok (w : U32) : wordByte (rot_word w) = rotWord (wordByte w) := by
  have h := w.isLt
  have e : rot_word w = (((w >>> 16).setWidth 8 : U8) ++ ((w >>> 8).setWidth 8 : U8) ++ ((w >>> 0).setWidth 8 : U8)
      ++ ((w >>> 24).setWidth 8 : U8) : BitVec 32) := by
    apply BitVec.eq_of_getLsbD_eq
    intro i hi
    simp only [rot_word, BitVec.getLsbD_append, BitVec.getLsbD_or, BitVec.getLsbD_shiftLeft, BitVec.getLsbD_setWidth,
      BitVec.getLsbD_ushiftRight]
    by_cases h1 : i < 8
    · simp [h1]
    · have := BitVec.getLsbD_of_ge w (24 + i) (by omega)
      by_cases h2 : i < 16
      · simp [h1, this, show i - 8 < 8 by omega, hi]
      · by_cases h3 : i < 24
        · simp [h1, this, show ¬ i - 8 < 8 by omega, show i - 8 - 8 < 8 by omega, hi, show 8 + (i - 8 - 8) = i - 8 by omega]
        · simp [h1, this, show ¬ i - 8 < 8 by omega, show ¬ i - 8 - 8 < 8 by omega, hi,
            show 16 + (i - 8 - 8 - 8) = i - 8 by omega]
          omega
  rw [e, ← Sha256.be32_eq, wordByte_or]
  funext r
  revert r
  exact forall_fin4 rfl rfl rfl rfl

theorem wordByte_xor (a b : U32) : wordByte (a ^^^ b) = xorWord (wordByte a) (wordByte b) := by
  funext r
  simp only [wordByte, xorWord, BitVec.ushiftRight_xor_distrib, BitVec.setWidth_xor]

theorem rcon_table : ∀ t : Fin 10, ∀ r : Fin 4, wordByte RCON[t.val] r = rcon (t.val + 1) r := by decide +kernel

theorem RCON_ok (i : Nat) (h : i < 10) : wordByte RCON[i] = rcon (i + 1) := by
  funext r
  exact rcon_table ⟨i, h⟩ r

/-! ### Key expansion -/

/-- `ws` holds the first `n` words of the key schedule. -/
def IsSchedule (nk : Nat) (key : List U8) (n : Nat) (ws : List U32) : Prop :=
  ws.length = n ∧ ∀ j (h : j < ws.length), wordByte ws[j] = keyWord nk key j

theorem IsSchedule.snoc {nk : Nat} {key : List U8} {n : Nat} {ws : List U32} (h : IsSchedule nk key n ws) (w : U32)
    (hw : wordByte w = keyWord nk key n) : IsSchedule nk key (n + 1) (ws ++ [w]) := by
  refine ⟨by simp [h.1], ?_⟩
  intro j hj
  by_cases hj' : j < ws.length
  · rw [List.getElem_append_left hj']
    exact h.2 j hj'
  · have : j = ws.length := by simp at hj; omega
    subst this
    rw [List.getElem_append_right (by omega)]
    simpa [h.1] using hw

theorem getElem_byteAt (key : List U8) (k : Nat) (h : k < key.length) : key[k] = Spec.byteAt key k := by
  simp [Spec.byteAt, List.getD_eq_getElem?_getD, h]

theorem expand_key_ok (T : Target) (key : List U8) (nk rc : Nat) (hk : key.length = 4 * nk) (hnk : 1 ≤ nk)
    (hle : nk ≤ 4 * (rc + 1)) (hr : 4 * (rc + 1) ≤ 11 * nk) :
    ∃ ws, expand_key T key rc = .ok ws ∧ IsSchedule nk key (4 * (rc + 1)) ws := by
  have e : key.length / 4 = nk := by omega
  unfold expand_key
  simp only [e]
  obtain ⟨ws, h1, h2⟩ := forRange_inv 0 nk (by omega) ([] : List U32) (fun i w => do
    let k0 ← idx key (4 * i)
    let k1 ← idx key (4 * i + 1)
    let k2 ← idx key (4 * i + 2)
    let k3 ← idx key (4 * i + 3)
    return w ++ [(k0.setWidth 32 <<< 24) ||| (k1.setWidth 32 <<< 16) ||| (k2.setWidth 32 <<< 8) ||| k3.setWidth 32])
    (fun i w => IsSchedule nk key i w) ⟨rfl, fun j hj => by simp at hj⟩ (by
      intro i w _ hi hw
      rw [idx_ok _ _ (by omega), idx_ok _ _ (by omega), idx_ok _ _ (by omega), idx_ok _ _ (by omega)]
      simp only [ok_bind, pure_eq_ok]
      refine ⟨_, rfl, hw.snoc _ ?_⟩
      rw [wordByte_or, keyWord, dif_pos (Or.inr hi)]
      funext r
      simp only [getElem_byteAt]
      revert r
      exact forall_fin4 rfl rfl rfl rfl)
  rw [h1]
  simp only [ok_bind]
  apply forRange_inv nk (4 * (rc + 1)) hle ws _ (fun i w => IsSchedule nk key i w) h2
  intro i w hi hi' hw
  rw [T.sub_ok (show 1 ≤ i by omega)]
  simp only [ok_bind]
  rw [idx_ok _ _ (by rw [hw.1]; omega), T.rem_ok (show nk ≠ 0 by omega)]
  simp only [ok_bind]
  rw [T.sub_ok hi]
  simp only [ok_bind]
  rw [idx_ok _ _ (by rw [hw.1]; omega)]
  simp only [ok_bind]
  have hl : i - 1 < w.length := by rw [hw.1]; omega
  have ht := hw.2 (i - 1) hl
  have hp := hw.2 (i - nk) (by rw [hw.1]; omega)
  have key_i : keyWord nk key i = xorWord (keyWord nk key (i - nk))
      (if i % nk = 0 then xorWord (subWord (rotWord (keyWord nk key (i - 1)))) (rcon (i / nk))
       else if nk > 6 ∧ i % nk = 4 then subWord (keyWord nk key (i - 1)) else keyWord nk key (i - 1)) := by
    rw [keyWord, dif_neg (by omega)]
  suffices ∃ t, (if i % nk = 0 then do
        let s ← sub_word (rot_word w[i - 1])
        let rc ← vidx RCON (← T.sub (i / nk) 1)
        return s ^^^ rc
      else if nk > 6 ∧ i % nk = 4 then
        sub_word w[i - 1]
      else
        return w[i - 1] : M U32) = .ok t ∧ wordByte t = (if i % nk = 0 then xorWord (subWord (rotWord (keyWord nk key (i - 1)))) (rcon (i / nk))
       else if nk > 6 ∧ i % nk = 4 then subWord (keyWord nk key (i - 1)) else keyWord nk key (i - 1)) by
    obtain ⟨t, h3, h4⟩ := this
    rw [h3]
    simp only [ok_bind, pure_eq_ok]
    refine ⟨_, rfl, hw.snoc _ ?_⟩
    rw [wordByte_xor, key_i, h4, hp]
  by_cases h0 : i % nk = 0
  · rw [if_pos h0, if_pos h0]
    obtain ⟨s, hs1, hs2⟩ := sub_word_ok (rot_word w[i - 1])
    have hq : 1 ≤ i / nk := (Nat.one_le_div_iff (by omega)).2 hi
    have hq' : i / nk < 11 := Nat.div_lt_of_lt_mul (by rw [Nat.mul_comm]; omega)
    rw [hs1, T.sub_ok hq]
    simp only [ok_bind]
    rw [vidx_ok _ _ (show i / nk - 1 < 10 by omega)]
    refine ⟨_, rfl, ?_⟩
    rw [wordByte_xor, hs2, rot_word_ok, ht, RCON_ok _ (by omega), show i / nk - 1 + 1 = i / nk by omega]
  · rw [if_neg h0, if_neg h0]
    by_cases h6 : nk > 6 ∧ i % nk = 4
    · rw [if_pos h6, if_pos h6]
      obtain ⟨s, hs1, hs2⟩ := sub_word_ok w[i - 1]
      exact ⟨s, hs1, by rw [hs2, ht]⟩
    · rw [if_neg h6, if_neg h6]
      exact ⟨_, rfl, ht⟩

/-! ### The steps of a round -/

/-- The state of FIPS-197 held in a block: `block[column][row]`. -/
def abs (s : Block) : State := fun r c => s[c][r]

theorem abs_inj {s t : Block} (h : abs s = abs t) : s = t := by
  apply Vector.ext
  intro c hc
  apply Vector.ext
  intro r hr
  exact congrFun (congrFun h ⟨r, hr⟩) ⟨c, hc⟩

theorem vector_mapM_ok {α β : Type} {n : Nat} (v : Vector α n) (f : α → M β) (g : α → β) (h : ∀ a, f a = .ok (g a)) :
    v.mapM f = .ok (v.map g) := by
  have : f = fun a => pure (g a) := by funext a; rw [h]; rfl
  rw [this, Vector.mapM_pure]
  rfl

theorem encLookup_ok (b : U8) : encLookup b = .ok (sbox b) := by
  rw [encLookup, vidx_ok _ _ b.isLt, SBOX_eq]

theorem decLookup_ok (b : U8) : decLookup b = .ok (invSbox b) := by
  rw [decLookup, vidx_ok _ _ b.isLt, INV_SBOX_eq]

theorem sub_bytes_enc (s : Block) : ∃ s', sub_bytes encLookup s = .ok s' ∧ abs s' = subBytes (abs s) := by
  refine ⟨s.map (fun col => col.map sbox), ?_, ?_⟩
  · exact vector_mapM_ok _ _ _ fun col => vector_mapM_ok _ _ _ encLookup_ok
  · funext r c
    simp [abs, subBytes]

theorem sub_bytes_dec (s : Block) : ∃ s', sub_bytes decLookup s = .ok s' ∧ abs s' = invSubBytes (abs s) := by
  refine ⟨s.map (fun col => col.map invSbox), ?_, ?_⟩
  · exact vector_mapM_ok _ _ _ fun col => vector_mapM_ok _ _ _ decLookup_ok
  · funext r c
    simp [abs, invSubBytes]

theorem shift_enc (s : Block) : abs (encShiftRows s) = shiftRows (abs s) := by
  funext r c
  revert r
  refine forall_fin4 ?_ ?_ ?_ ?_ <;> revert c <;> exact forall_fin4 rfl rfl rfl rfl

theorem shift_dec (s : Block) : abs (decShiftRows s) = invShiftRows (abs s) := by
  funext r c
  revert r
  refine forall_fin4 ?_ ?_ ?_ ?_ <;> revert c <;> exact forall_fin4 rfl rfl rfl rfl

theorem abs_mix (f : Vector U8 4 → Vector U8 4) (s : Block) (r c : Fin 4) : abs (mix_columns f s) r c = (f s[c])[r] := by
  simp [abs, mix_columns]

theorem mix_enc (s : Block) : abs (mix_columns encMixColumn s) = mixColumns (abs s) := by
  funext r c
  rw [abs_mix]
  revert r
  refine forall_fin4 ?_ ?_ ?_ ?_ <;>
    · simp only [mixColumns, encMixColumn, mul_2, mul_3, v4_0, v4_1, v4_2, v4_3]
      rfl

theorem mix_dec (s : Block) : abs (mix_columns decMixColumn s) = invMixColumns (abs s) := by
  funext r c
  rw [abs_mix]
  revert r
  refine forall_fin4 ?_ ?_ ?_ ?_ <;>
    · simp only [invMixColumns, decMixColumn, mul_9, mul_b, mul_d, mul_e, v4_0, v4_1, v4_2, v4_3]
      rfl

theorem addKeyColumn_ok (col : Vector U8 4) (k : U32) (r : Fin 4) :
    (addKeyColumn col k)[r] = col[r] ^^^ wordByte k r := by
  have z (j : Nat) : ((k >>> j) &&& 0xff).setWidth 8 = ((k >>> j).setWidth 8 : U8) := by
    rw [byte_mask]
    apply BitVec.eq_of_toNat_eq
    simp
  have z0 : (k &&& (0xff : U32)).setWidth 8 = ((k >>> 0).setWidth 8 : U8) := by
    have := z 0
    rwa [show k >>> 0 = k by simp] at this ⊢
  revert r
  simp only [addKeyColumn, z, z0]
  refine forall_fin4 ?_ ?_ ?_ ?_
  · rw [v4_0]; rfl
  · rw [v4_1]; rfl
  · rw [v4_2]; rfl
  · rw [v4_3]; rfl

/-- `add_round_key` with the four words from position `4 * round`. -/
theorem add_key_ok (s : Block) (k : List U32) (w : Nat → Word4) (round : Nat) (hk : 4 ≤ k.length)
    (h : ∀ c (hc : c < 4), wordByte (k[c]'(by omega)) = w (4 * round + c)) :
    abs (add_round_key s k) = addRoundKey w round (abs s) := by
  funext r c
  have e : (add_round_key s k)[c] = addKeyColumn s[c] (k[c.val]'(by omega)) := by
    have hc : k[c.val]? = some (k[c.val]'(by omega)) := List.getElem?_eq_getElem (by omega)
    simp only [add_round_key, Fin.getElem_fin, Vector.getElem_ofFn, hc]
  simp only [abs, e, addKeyColumn_ok, addRoundKey]
  rw [h c.val c.isLt]

theorem load_ok (b : Vector U8 16) : abs (to_block b) = load b.toList := by
  have h (k : Nat) (hk : k < 16) : Spec.byteAt b.toList k = b[k] := by
    simp [Spec.byteAt, hk]
  funext r c
  rw [load, h _ (by omega)]
  revert r
  refine forall_fin4 ?_ ?_ ?_ ?_ <;> revert c <;> exact forall_fin4 rfl rfl rfl rfl

theorem store_ok (s : Block) : (from_block s).toList = store (abs s) := rfl

theorem load_store (s : State) : load (store s) = s := by
  funext r c
  revert r
  refine forall_fin4 ?_ ?_ ?_ ?_ <;> revert c <;> exact forall_fin4 rfl rfl rfl rfl

/-! ### Encryption and decryption -/

theorem slice_words (ws : List U32) (w : Nat → Word4) (h : ∀ j (hj : j < ws.length), wordByte ws[j] = w j) (round : Nat)
    (hr : 4 * (round + 1) ≤ ws.length) : ∃ k, slice ws (round * NB) ((round + 1) * NB) = .ok k ∧ ∃ hk : 4 ≤ k.length,
      ∀ c (hc : c < 4), wordByte (k[c]'(by omega)) = w (4 * round + c) := by
  refine ⟨(ws.take ((round + 1) * 4)).drop (round * 4), ?_, ?_, ?_⟩
  · rw [slice, if_pos]
    · rfl
    · simp only [NB]; omega
  · simp; omega
  · intro c hc
    rw [List.getElem_drop, List.getElem_take, h, Nat.mul_comm]

theorem sliceFrom_words (ws : List U32) (w : Nat → Word4) (h : ∀ j (hj : j < ws.length), wordByte ws[j] = w j) (round : Nat)
    (hr : 4 * (round + 1) ≤ ws.length) : ∃ k, sliceFrom ws (round * NB) = .ok k ∧ ∃ hk : 4 ≤ k.length,
      ∀ c (hc : c < 4), wordByte (k[c]'(by omega)) = w (4 * round + c) := by
  refine ⟨ws.drop (round * 4), ?_, ?_, ?_⟩
  · rw [sliceFrom, if_pos]
    · rfl
    · simp only [NB]; omega
  · simp; omega
  · intro c hc
    rw [List.getElem_drop, h, Nat.mul_comm]

theorem slice_words0 (ws : List U32) (w : Nat → Word4) (h : ∀ j (hj : j < ws.length), wordByte ws[j] = w j)
    (hr : 4 ≤ ws.length) : ∃ k, slice ws 0 NB = .ok k ∧ ∃ hk : 4 ≤ k.length,
      ∀ c (hc : c < 4), wordByte (k[c]'(by omega)) = w (4 * 0 + c) := by
  have := slice_words ws w h 0 (by omega)
  simpa using this

theorem encRound_ok (ws : List U32) (w : Nat → Word4) (h : ∀ j (hj : j < ws.length), wordByte ws[j] = w j) (round : Nat)
    (hr : 4 * (round + 1) ≤ ws.length) (s : Block) : ∃ s', AES.encRound ws round s = .ok s' ∧
      abs s' = addRoundKey w round (mixColumns (shiftRows (subBytes (abs s)))) := by
  obtain ⟨s1, h1, a1⟩ := sub_bytes_enc s
  obtain ⟨k, hk, hl, hw⟩ := slice_words ws w h round hr
  unfold AES.encRound
  rw [h1]
  simp only [ok_bind]
  rw [hk]
  refine ⟨_, rfl, ?_⟩
  rw [add_key_ok _ k w round hl hw, mix_enc, shift_enc, a1]

theorem encrypt_ok (self : AES) (ws : List U32) (w : Nat → Word4) (hk : self.round_keys = some ws)
    (h : ∀ j (hj : j < ws.length), wordByte ws[j] = w j) (hl : 4 * (self.round_count + 1) ≤ ws.length)
    (hn : 1 ≤ self.round_count) (b : Vector U8 16) :
    ∃ o, self.encrypt b = .ok (.ok o) ∧ o.toList = cipher self.round_count w b.toList := by
  obtain ⟨k0, hk0, hl0, hw0⟩ := slice_words0 ws w h (by omega)
  obtain ⟨kn, hkn, hln, hwn⟩ := sliceFrom_words ws w h self.round_count hl
  unfold AES.encrypt
  simp only [hk]
  rw [hk0]
  simp only [ok_bind]
  obtain ⟨s1, h1, a1⟩ := forRange_inv 1 self.round_count hn (add_round_key (to_block b) k0) (AES.encRound ws)
    (fun i s => abs s = rounds w (i - 1) (addRoundKey w 0 (load b.toList)))
    (by rw [add_key_ok _ k0 w 0 hl0 hw0, load_ok]; rfl) (by
      intro i s h1 h2 hs
      obtain ⟨s', e, a⟩ := encRound_ok ws w h i (by omega) s
      refine ⟨s', e, ?_⟩
      obtain ⟨j, rfl⟩ : ∃ j, i = j + 1 := ⟨i - 1, by omega⟩
      rw [a, hs]
      rfl)
  rw [h1]
  obtain ⟨s2, h2, a2⟩ := sub_bytes_enc s1
  simp only [ok_bind]
  rw [h2]
  simp only [ok_bind]
  rw [hkn]
  refine ⟨_, rfl, ?_⟩
  rw [store_ok, add_key_ok _ kn w self.round_count hln hwn, shift_enc, a2, a1]
  rfl

theorem decRound_ok (ws : List U32) (w : Nat → Word4) (h : ∀ j (hj : j < ws.length), wordByte ws[j] = w j) (round : Nat)
    (hr : 4 * (round + 1) ≤ ws.length) (s : Block) : ∃ s', AES.decRound ws round s = .ok s' ∧
      abs s' = invMixColumns (addRoundKey w round (invSubBytes (invShiftRows (abs s)))) := by
  obtain ⟨s1, h1, a1⟩ := sub_bytes_dec (decShiftRows s)
  obtain ⟨k, hk, hl, hw⟩ := slice_words ws w h round hr
  unfold AES.decRound
  simp only []
  rw [h1]
  simp only [ok_bind]
  rw [hk]
  refine ⟨_, rfl, ?_⟩
  rw [mix_dec, add_key_ok _ k w round hl hw, a1, shift_dec]

theorem forRangeRev_succ {σ : Type} (lo hi : Nat) (h : lo ≤ hi) (s : σ) (body : Nat → σ → M σ) :
    forRangeRev lo (hi + 1) s body = (body hi s >>= fun s => forRangeRev lo hi s body) := by
  simp only [forRangeRev]
  rw [show hi + 1 - lo = (hi - lo) + 1 by omega, List.range'_concat, List.reverse_append]
  simp only [List.reverse_cons, List.reverse_nil, List.nil_append, List.cons_append]
  rw [forEach_cons]
  simp only [Nat.one_mul, show lo + (hi - lo) = hi by omega]

theorem decRounds_ok (ws : List U32) (w : Nat → Word4) (h : ∀ j (hj : j < ws.length), wordByte ws[j] = w j) (n : Nat)
    (hn : 4 * (n + 1) ≤ ws.length) (s : Block) : ∃ s', forRangeRev 1 (n + 1) s (AES.decRound ws) = .ok s' ∧
      abs s' = invRounds w n (abs s) := by
  induction n generalizing s with
  | zero => exact ⟨s, rfl, rfl⟩
  | succ n ih =>
    rw [forRangeRev_succ _ _ (by omega)]
    obtain ⟨s1, h1, a1⟩ := decRound_ok ws w h (n + 1) hn s
    obtain ⟨s2, h2, a2⟩ := ih (by omega) s1
    rw [h1]
    simp only [ok_bind]
    refine ⟨s2, h2, ?_⟩
    rw [a2, a1]
    rfl

theorem decrypt_ok (self : AES) (ws : List U32) (w : Nat → Word4) (hk : self.round_keys = some ws)
    (h : ∀ j (hj : j < ws.length), wordByte ws[j] = w j) (hl : 4 * (self.round_count + 1) ≤ ws.length)
    (hn : 1 ≤ self.round_count) (b : Vector U8 16) :
    ∃ o, self.decrypt b = .ok (.ok o) ∧ o.toList = invCipher self.round_count w b.toList := by
  obtain ⟨k0, hk0, hl0, hw0⟩ := slice_words0 ws w h (by omega)
  obtain ⟨kn, hkn, hln, hwn⟩ := sliceFrom_words ws w h self.round_count hl
  obtain ⟨n, hn'⟩ : ∃ n, self.round_count = n + 1 := ⟨self.round_count - 1, by omega⟩
  unfold AES.decrypt
  simp only [hk]
  rw [hkn]
  simp only [ok_bind]
  obtain ⟨s1, h1, a1⟩ := decRounds_ok ws w h n (by omega) (add_round_key (to_block b) kn)
  rw [hn', h1]
  obtain ⟨s2, h2, a2⟩ := sub_bytes_dec (decShiftRows s1)
  simp only [ok_bind]
  rw [h2]
  simp only [ok_bind]
  rw [hk0]
  refine ⟨_, rfl, ?_⟩
  rw [store_ok, add_key_ok _ k0 w 0 hl0 hw0, a2, shift_dec, a1, add_key_ok _ kn w self.round_count hln hwn, load_ok, hn']
  rfl

/-! ### The inverse cipher inverts the cipher -/

theorem invShift_shift (s : State) : invShiftRows (shiftRows s) = s := by
  funext r c
  simp only [invShiftRows, shiftRows]
  rw [show c - r + r = c by omega]

theorem shift_invShift (s : State) : shiftRows (invShiftRows s) = s := by
  funext r c
  simp only [invShiftRows, shiftRows]
  rw [show c + r - r = c by omega]

theorem invSub_sub (s : State) : invSubBytes (subBytes s) = s := by
  funext r c
  exact invSbox_sbox _

theorem sub_invSub (s : State) : subBytes (invSubBytes s) = s := by
  funext r c
  exact sbox_invSbox _

theorem addKey_addKey (w : Nat → Word4) (k : Nat) (s : State) : addRoundKey w k (addRoundKey w k s) = s := by
  funext r c
  simp only [addRoundKey, BitVec.xor_assoc, BitVec.xor_self, BitVec.xor_zero]

theorem xor_regroup (a0 a1 a2 a3 b0 b1 b2 b3 c0 c1 c2 c3 d0 d1 d2 d3 : U8) :
    (a0 ^^^ a1 ^^^ a2 ^^^ a3) ^^^ (b1 ^^^ b2 ^^^ b3 ^^^ b0) ^^^ (c2 ^^^ c3 ^^^ c0 ^^^ c1) ^^^ (d3 ^^^ d0 ^^^ d1 ^^^ d2)
      = (a0 ^^^ b0 ^^^ c0 ^^^ d0) ^^^ (a1 ^^^ b1 ^^^ c1 ^^^ d1) ^^^ (a2 ^^^ b2 ^^^ c2 ^^^ d2) ^^^ (a3 ^^^ b3 ^^^ c3 ^^^ d3) := by
  simp only [bxor_comm, bxor_left_comm]

theorem gcollect (p q r t x : U8) (k : U8) (h : p ^^^ q ^^^ r ^^^ t = k) :
    gmul p x ^^^ gmul q x ^^^ gmul r x ^^^ gmul t x = gmul k x := by
  rw [← gmul_add_left, ← gmul_add_left, ← gmul_add_left, h]

theorem invMix_mix_row (x0 x1 x2 x3 : U8) :
    gmul 0x0e (gmul 0x02 x0 ^^^ gmul 0x03 x1 ^^^ x2 ^^^ x3) ^^^ gmul 0x0b (gmul 0x02 x1 ^^^ gmul 0x03 x2 ^^^ x3 ^^^ x0)
      ^^^ gmul 0x0d (gmul 0x02 x2 ^^^ gmul 0x03 x3 ^^^ x0 ^^^ x1)
      ^^^ gmul 0x09 (gmul 0x02 x3 ^^^ gmul 0x03 x0 ^^^ x1 ^^^ x2) = x0 := by
  simp only [gmul_add_right, ← gmul_assoc]
  rw [xor_regroup,
    gcollect (gmul 0x0e 0x02) 0x0b 0x0d (gmul 0x09 0x03) x0 1 (by decide +kernel),
    gcollect (gmul 0x0e 0x03) (gmul 0x0b 0x02) 0x0d 0x09 x1 0 (by decide +kernel),
    gcollect 0x0e (gmul 0x0b 0x03) (gmul 0x0d 0x02) 0x09 x2 0 (by decide +kernel),
    gcollect 0x0e 0x0b (gmul 0x0d 0x03) (gmul 0x09 0x02) x3 0 (by decide +kernel)]
  simp only [gmul_one_left, gmul_zero_left]
  simp

theorem mix_invMix_row (x0 x1 x2 x3 : U8) :
    gmul 0x02 (gmul 0x0e x0 ^^^ gmul 0x0b x1 ^^^ gmul 0x0d x2 ^^^ gmul 0x09 x3)
      ^^^ gmul 0x03 (gmul 0x0e x1 ^^^ gmul 0x0b x2 ^^^ gmul 0x0d x3 ^^^ gmul 0x09 x0)
      ^^^ (gmul 0x0e x2 ^^^ gmul 0x0b x3 ^^^ gmul 0x0d x0 ^^^ gmul 0x09 x1)
      ^^^ (gmul 0x0e x3 ^^^ gmul 0x0b x0 ^^^ gmul 0x0d x1 ^^^ gmul 0x09 x2) = x0 := by
  simp only [gmul_add_right, ← gmul_assoc]
  rw [xor_regroup,
    gcollect (gmul 0x02 0x0e) (gmul 0x03 0x09) 0x0d 0x0b x0 1 (by decide +kernel),
    gcollect (gmul 0x02 0x0b) (gmul 0x03 0x0e) 0x09 0x0d x1 0 (by decide +kernel),
    gcollect (gmul 0x02 0x0d) (gmul 0x03 0x0b) 0x0e 0x09 x2 0 (by decide +kernel),
    gcollect (gmul 0x02 0x09) (gmul 0x03 0x0d) 0x0b 0x0e x3 0 (by decide +kernel)]
  simp only [gmul_one_left, gmul_zero_left]
  simp

theorem invMix_mix (s : State) : invMixColumns (mixColumns s) = s := by
  funext r c
  have h := invMix_mix_row (s r c) (s (r + 1) c) (s (r + 2) c) (s (r + 3) c)
  simp only [invMixColumns, mixColumns]
  rw [show r + 1 + 1 = r + 2 by omega, show r + 1 + 2 = r + 3 by omega, show r + 1 + 3 = r by omega,
    show r + 2 + 1 = r + 3 by omega, show r + 2 + 2 = r by omega, show r + 2 + 3 = r + 1 by omega,
    show r + 3 + 1 = r by omega, show r + 3 + 2 = r + 1 by omega, show r + 3 + 3 = r + 2 by omega]
  exact h

theorem mix_invMix (s : State) : mixColumns (invMixColumns s) = s := by
  funext r c
  have h := mix_invMix_row (s r c) (s (r + 1) c) (s (r + 2) c) (s (r + 3) c)
  simp only [invMixColumns, mixColumns]
  rw [show r + 1 + 1 = r + 2 by omega, show r + 1 + 2 = r + 3 by omega, show r + 1 + 3 = r by omega,
    show r + 2 + 1 = r + 3 by omega, show r + 2 + 2 = r by omega, show r + 2 + 3 = r + 1 by omega,
    show r + 3 + 1 = r by omega, show r + 3 + 2 = r + 1 by omega, show r + 3 + 3 = r + 2 by omega]
  exact h

/-- The state before the final `AddRoundKey` of the cipher is undone round by round. -/
theorem invRounds_rounds (w : Nat → Word4) (n : Nat) (s : State) :
    invRounds w n (shiftRows (subBytes (rounds w n s))) = shiftRows (subBytes s) := by
  induction n with
  | zero => rfl
  | succ n ih =>
    simp only [rounds, invRounds]
    rw [invShift_shift, invSub_sub, addKey_addKey, invMix_mix, ih]

theorem rounds_invRounds (w : Nat → Word4) (n : Nat) (s : State) :
    rounds w n (invSubBytes (invShiftRows (invRounds w n s))) = invSubBytes (invShiftRows s) := by
  induction n generalizing s with
  | zero => rfl
  | succ n ih =>
    simp only [rounds, invRounds]
    rw [ih, sub_invSub, shift_invShift, mix_invMix, addKey_addKey]

theorem store_load (b : Vector U8 16) : store (load b.toList) = b.toList := by
  have h (k : Nat) (hk : k < 16) : Spec.byteAt b.toList k = b[k] := by
    simp [Spec.byteAt, hk]
  apply List.ext_getElem
  · simp [store]
  · intro i h1 h2
    have hi : i < 16 := by simpa [store] using h1
    simp only [store, load, List.getElem_map, List.getElem_range, Vector.getElem_toList]
    rw [← h i hi]
    congr 1
    simp only [Fin.val_ofNat]
    omega

theorem invCipher_cipher (nr : Nat) (w : Nat → Word4) (b : Vector U8 16) :
    invCipher nr w (cipher nr w b.toList) = b.toList := by
  simp only [invCipher, cipher, load_store]
  rw [addKey_addKey, invRounds_rounds, invShift_shift, invSub_sub, addKey_addKey, store_load]

theorem cipher_invCipher (nr : Nat) (w : Nat → Word4) (b : Vector U8 16) :
    cipher nr w (invCipher nr w b.toList) = b.toList := by
  simp only [invCipher, cipher, load_store]
  rw [addKey_addKey, rounds_invRounds, sub_invSub, shift_invShift, addKey_addKey, store_load]

end Verif.Aes
