import Verif.Model.Pbkdf2
import Verif.Spec.Pbkdf2
import Verif.Proof.Hmac

/-! PBKDF2: the model computes RFC 2898. -/

namespace Verif.Pbkdf2
open Verif Verif.Sha256 Verif.Hmac
open Spec.Pbkdf2 (U F stream)

/-- The pseudorandom function the code computes on target `T`. -/
def prfOn (T : Target) (key msg : List U8) : List U8 := Spec.hmac (hashOn T) key msg

@[simp] theorem prfOn_length (T : Target) (key msg : List U8) : (prfOn T key msg).length = 32 := hashOn_length _ _

@[simp] theorem U_length (T : Target) (P S : List U8) (i j : Nat) : (U (prfOn T) P S i j).length = 32 := by
  cases j <;> simp [U]

theorem foldl_xor_length (l : List Nat) (f : Nat → List U8) (hf : ∀ j, (f j).length = 32) (a : List U8)
    (ha : a.length = 32) : (l.foldl (fun acc j => Spec.xorBytes acc (f j)) a).length = 32 := by
  induction l generalizing a with
  | nil => exact ha
  | cons x l ih => exact ih _ (by simp [Spec.xorBytes, ha, hf])

@[simp] theorem F_length (T : Target) (P S : List U8) (c i : Nat) : (F (prfOn T) P S c i).length = 32 :=
  foldl_xor_length _ (fun j => U (prfOn T) P S i (j + 1)) (fun j => U_length T P S i (j + 1)) _ (U_length ..)

@[simp] theorem stream_length (T : Target) (P S : List U8) (c l : Nat) :
    (stream (prfOn T) P S c l).length = 32 * l := by
  induction l with
  | zero => rfl
  | succ l ih =>
    rw [stream] at ih ⊢
    rw [List.range_succ, List.flatMap_append, List.length_append, ih]
    simp
    omega

theorem stream_succ (prf : List U8 → List U8 → List U8) (P S : List U8) (c l : Nat) :
    stream prf P S c (l + 1) = stream prf P S c l ++ F prf P S c (l + 1) := by
  simp [stream, List.range_succ]

theorem xorInto_eq (t u : Vector U8 32) :
    ∃ t', xorInto t u = .ok t' ∧ t'.toList = Spec.xorBytes t.toList u.toList := by
  obtain ⟨t', h1, h2⟩ := forRange_inv 0 32 (by decide) t
    (fun k t => do
      let tk ← vidx t k
      let uk ← vidx u k
      vupd t k (tk ^^^ uk))
    (fun i s => ∀ j (hj : j < 32), s[j] = if j < i then t[j] ^^^ u[j] else t[j])
    (by intro j hj; simp)
    (by
      intro i s _ hi hP
      rw [vidx_ok _ _ hi, ok_bind, vidx_ok _ _ hi, ok_bind, vupd_ok _ _ _ hi]
      refine ⟨_, rfl, ?_⟩
      intro j hj
      rw [Vector.getElem_set]
      by_cases hij : i = j
      · subst hij
        rw [if_pos rfl, if_pos (by omega), hP i hi, if_neg (by omega)]
      · rw [if_neg hij, hP j hj]
        by_cases hlt : j < i
        · rw [if_pos hlt, if_pos (by omega)]
        · rw [if_neg hlt, if_neg (by omega)])
  refine ⟨t', h1, ?_⟩
  apply List.ext_getElem
  · simp [Spec.xorBytes]
  · intro i hi hi'
    have : i < 32 := by simpa using hi
    have := h2 i this
    simp only [Spec.xorBytes, List.getElem_zipWith, Vector.getElem_toList]
    rw [this, if_pos (by assumption)]

/-- One application of the pseudorandom function. -/
theorem prf_eq (T : Target) (key a : List U8) (hk : Fits T key.length) (hf : Fits T (64 + a.length)) :
    ∃ hm hm1 hm2 d, HMac.new T key = .ok hm ∧ hm.update T a = .ok hm1 ∧ hm1.digest T = .ok (hm2, d) ∧
      d.toList = prfOn T key a := by
  obtain ⟨hm, h1, hK⟩ := new_keyed T key hk
  have hl := hmacKey_length T key
  obtain ⟨hm1, h2, hK1⟩ := hK.update a (hf.mono (by simp [hl]))
  obtain ⟨hm2, d, h3, hd⟩ := hK1.digest hl (by simpa using hf)
  exact ⟨hm, hm1, hm2, d, h1, h2, h3, hd⟩

theorem ctr_eq (i : Nat) : ([BitVec.ofNat 8 (i >>> 24), BitVec.ofNat 8 (i >>> 16), BitVec.ofNat 8 (i >>> 8),
    BitVec.ofNat 8 i] : List U8) = Spec.beBytes 4 i := by
  rw [beBytes4]
  simp only [Nat.shiftRight_eq_div_pow]

theorem derive_block_eq (T : Target) (P S : List U8) (c i : Nat) (hP : Fits T P.length)
    (hS : Fits T (68 + S.length)) :
    ∃ t, derive_block T P S c i = .ok t ∧ t.toList = F (prfOn T) P S c i := by
  unfold derive_block
  simp only [ctr_eq]
  obtain ⟨hm, h1, hK⟩ := new_keyed T P hP
  have hl := hmacKey_length T P
  have hb : (Spec.beBytes 4 i).length = 4 := by simp [Spec.beBytes]
  obtain ⟨hm1, h2, hK1⟩ := hK.update S (hS.mono (by simp [hl]; try omega))
  obtain ⟨hm2, h3, hK2⟩ := hK1.update (Spec.beBytes 4 i) (hS.mono (by simp [hl, hb]; try omega))
  obtain ⟨hm3, u, h4, hu⟩ := hK2.digest hl (hS.mono (by simp [hb]; try omega))
  rw [h1]; simp only [ok_bind]
  rw [h2]; simp only [ok_bind]
  rw [h3]; simp only [ok_bind]
  rw [h4]; simp only [ok_bind]
  have hu0 : u.toList = U (prfOn T) P S i 0 := by rw [hu]; rfl
  by_cases hc : c < 2
  · refine ⟨u, ?_, ?_⟩
    · rw [forRangeIncl, forRange_self _ _ (by omega)]; rfl
    · rw [hu0, F, show c - 1 = 0 by omega]; rfl
  · obtain ⟨⟨u', t'⟩, h5, h6⟩ := forRange_inv 2 (c + 1) (by omega) (u, u)
      (fun (_j : Nat) (ut : Vector U8 32 × Vector U8 32) => (do
        let hmac ← hm.update T ut.1.toList
        let x ← hmac.digest T
        let t ← xorInto ut.2 x.2
        pure (x.2, t) : M (Vector U8 32 × Vector U8 32)))
      (fun j ut => ut.1.toList = U (prfOn T) P S i (j - 2) ∧ ut.2.toList = F (prfOn T) P S (j - 1) i)
      ⟨hu0, hu0⟩
      (by
        rintro j ⟨u, t⟩ hj _ ⟨hu, ht⟩
        obtain ⟨hm', hm1, hm2, d, e1, e2, e3, hd⟩ := prf_eq T P u.toList hP (Fits.small T (by simp))
        obtain rfl : hm = hm' := by rw [h1] at e1; exact Except.ok.inj e1
        obtain ⟨t', e4, ht'⟩ := xorInto_eq t d
        refine ⟨(d, t'), ?_, ?_, ?_⟩
        · simp only [ok_bind, e2, e3, e4, pure_eq_ok]
        · rw [hd, hu, show j + 1 - 2 = (j - 2) + 1 by omega]; rfl
        · simp only at hu ht
          simp only
          rw [ht', ht, hd, hu, F, F, show j + 1 - 1 - 1 = (j - 1 - 1) + 1 by omega, List.range_succ, List.foldl_append]
          rw [show j - 2 = j - 1 - 1 by omega]
          rfl)
    refine ⟨t', ?_, h6.2⟩
    rw [forRangeIncl, h5]
    rfl

theorem take_append_full {α : Type} (a b : List α) (n : Nat) (h : a.length ≤ n) :
    (a ++ b).take n = a ++ b.take (n - a.length) := by
  rw [List.take_append, List.take_of_length_le h]

/-- The whole function, for all lengths for which nothing panics. -/
theorem pbkdf2_eq (T : Target) (P S : List U8) (c : Nat) (out : List U8) (hP : Fits T P.length)
    (hS : Fits T (68 + S.length)) (hout : out.length ≤ T.isizeMax) :
    pbkdf2_sha256 T P S c out = .ok (Spec.Pbkdf2.pbkdf2 (prfOn T) P S c out.length) := by
  have hbits : out.length + 32 < 2 ^ T.bits := by
    rw [Target.isizeMax] at hout
    rcases T.bits_cases with h | h <;> rw [h] at hout ⊢ <;> omega
  unfold pbkdf2_sha256
  rw [show DIGEST_SIZE = 32 from rfl, Target.add_ok _ hbits, ok_bind, Target.sub_ok _ (by omega), ok_bind]
  simp only [show out.length + 32 - 1 = out.length + 31 by omega]
  obtain ⟨o, h1, h2⟩ := forRange_inv 1 ((out.length + 31) / 32 + 1) (by omega) out
    (fun i out => do
      let t ← derive_block T P S c i
      let start ← T.mul (← T.sub i 1) 32
      let endm ← T.mul i 32
      let «end» := min endm out.length
      let src ← slice t.toList 0 (← T.sub «end» start)
      copyFromSlice out start «end» src)
    (fun i o => o = (stream (prfOn T) P S c (i - 1)).take out.length ++ out.drop (32 * (i - 1)))
    (by simp [stream])
    (by
      rintro i o hlo hi hPo
      obtain ⟨t, e1, ht⟩ := derive_block_eq T P S c i hP hS
      have hi32 : i * 32 < 2 ^ T.bits := by omega
      have hst : (i - 1) * 32 < out.length := by omega
      have hol : o.length = out.length := by
        rw [hPo]; simp; omega
      rw [e1, ok_bind, Target.sub_ok _ hlo, ok_bind, Target.mul_ok _ (by omega), ok_bind, Target.mul_ok _ hi32, ok_bind,
        hol]
      simp only
      rw [Target.sub_ok _ (by omega), ok_bind]
      have hsl : slice t.toList 0 (min (i * 32) out.length - (i - 1) * 32) =
          .ok (t.toList.take (min (i * 32) out.length - (i - 1) * 32)) := by
        rw [slice, if_pos (by simp; omega), List.drop_zero]
      rw [hsl, ok_bind, copyFromSlice, if_pos (by omega), if_pos (by simp; omega)]
      refine ⟨_, rfl, ?_⟩
      obtain ⟨k, rfl⟩ : ∃ k, i = k + 1 := ⟨i - 1, by omega⟩
      simp only [Nat.add_sub_cancel] at *
      rw [stream_succ, take_append_full _ _ _ (by simp; omega), ← ht, stream_length]
      have etake : o.take (k * 32) = stream (prfOn T) P S c k := by
        rw [hPo, List.take_of_length_le (i := out.length) (by simp; omega),
          List.take_append_of_le_length (by simp; omega), List.take_of_length_le (by simp; omega)]
      have edrop : o.drop (min ((k + 1) * 32) out.length) = out.drop (32 * (k + 1)) := by
        rw [hPo, List.take_of_length_le (i := out.length) (by simp; omega), List.drop_append, List.drop_drop,
          List.drop_eq_nil_of_le (as := stream _ _ _ _ _) (by simp; omega), List.nil_append, stream_length]
        rcases Nat.lt_or_ge ((k + 1) * 32) out.length with h | h
        · congr 1; omega
        · rw [List.drop_eq_nil_of_le (by omega), List.drop_eq_nil_of_le (by omega)]
      rw [etake, edrop]
      congr 2
      rw [List.take_eq_take_iff]
      simp
      omega)
  rw [forRangeIncl, h1, h2, Nat.add_sub_cancel, List.drop_eq_nil_of_le (by omega), List.append_nil]
  rfl

/-! ### Below the length limits the pseudorandom function is HMAC-SHA256 -/

theorem prfOn_eq (T : Target) (key msg : List U8) (hk : 8 * key.length < 2 ^ T.bits)
    (hm : 8 * (64 + msg.length) < 2 ^ T.bits) : prfOn T key msg = Spec.hmacSha256 key msg := by
  have hkey : Spec.hmacKey (hashOn T) key = Spec.hmacKey Spec.Sha256.sha256 key := by
    simp only [Spec.hmacKey, hashOn_eq T key hk]
  have hl := hmacKey_length T key
  rw [prfOn, Spec.hmacSha256, Spec.hmac, Spec.hmac]
  simp only [← hkey]
  rw [hashOn_eq T, hashOn_eq T]
  · simpa [hl] using hm
  · have := T.two_pow_ge
    simp [hl]
    omega

theorem U_eq (T : Target) (P S : List U8) (i j : Nat) (hk : 8 * P.length < 2 ^ T.bits)
    (hm : 8 * (68 + S.length) < 2 ^ T.bits) : U (prfOn T) P S i j = U Spec.hmacSha256 P S i j := by
  induction j with
  | zero => exact prfOn_eq T P _ hk (by simp [Spec.beBytes]; omega)
  | succ j ih =>
    simp only [U]
    rw [← ih]
    exact prfOn_eq T P _ hk (by have := T.two_pow_ge; simp; omega)

theorem F_eq (T : Target) (P S : List U8) (c i : Nat) (hk : 8 * P.length < 2 ^ T.bits)
    (hm : 8 * (68 + S.length) < 2 ^ T.bits) : F (prfOn T) P S c i = F Spec.hmacSha256 P S c i := by
  simp only [F, U_eq T P S i _ hk hm]

theorem pbkdf2_prfOn_eq (T : Target) (P S : List U8) (c n : Nat) (hk : 8 * P.length < 2 ^ T.bits)
    (hm : 8 * (68 + S.length) < 2 ^ T.bits) :
    Spec.Pbkdf2.pbkdf2 (prfOn T) P S c n = Spec.Pbkdf2.pbkdf2HmacSha256 P S c n := by
  simp only [Spec.Pbkdf2.pbkdf2HmacSha256, Spec.Pbkdf2.pbkdf2, stream, F_eq T P S c _ hk hm]

theorem pbkdf2_length (T : Target) (P S : List U8) (c n : Nat) :
    (Spec.Pbkdf2.pbkdf2 (prfOn T) P S c n).length = n := by
  simp [Spec.Pbkdf2.pbkdf2]
  omega

theorem stream_take (T : Target) (P S : List U8) (c k l n : Nat) (hkl : k ≤ l) (hn : n ≤ 32 * k) :
    (stream (prfOn T) P S c l).take n = (stream (prfOn T) P S c k).take n := by
  obtain ⟨d, rfl⟩ := Nat.exists_eq_add_of_le hkl
  rw [stream, List.range_add, List.flatMap_append]
  exact List.take_append_of_le_length (by simpa [stream] using Nat.le_trans hn (Nat.le_of_eq (stream_length T P S c k).symm))

theorem pbkdf2_prefix (T : Target) (P S : List U8) (c n m : Nat) (h : n ≤ m) :
    Spec.Pbkdf2.pbkdf2 (prfOn T) P S c n = (Spec.Pbkdf2.pbkdf2 (prfOn T) P S c m).take n := by
  rw [Spec.Pbkdf2.pbkdf2, Spec.Pbkdf2.pbkdf2, List.take_take, Nat.min_eq_left h,
    stream_take T P S c ((n + 31) / 32) ((m + 31) / 32) n (by omega) (by omega)]

/-- Byte `j` of block `i` of the output. -/
theorem stream_get (T : Target) (P S : List U8) (c l i j : Nat) (hi : i < l) (hj : j < 32) :
    (stream (prfOn T) P S c l)[32 * i + j]? = (F (prfOn T) P S c (i + 1))[j]? := by
  obtain ⟨d, rfl⟩ := Nat.exists_eq_add_of_lt hi
  rw [stream, show i + d + 1 = i + 1 + d by omega, List.range_add, List.flatMap_append, List.getElem?_append_left]
  · have := stream_succ (prfOn T) P S c i
    rw [stream] at this
    rw [this, List.getElem?_append_right (by simp), stream_length]
    congr 1; omega
  · have := stream_length T P S c (i + 1)
    rw [stream] at this
    rw [this]; omega

theorem pbkdf2_get (T : Target) (P S : List U8) (c n i j : Nat) (h : 32 * i + j < n) (hj : j < 32) :
    (Spec.Pbkdf2.pbkdf2 (prfOn T) P S c n)[32 * i + j]? = (F (prfOn T) P S c (i + 1))[j]? := by
  rw [Spec.Pbkdf2.pbkdf2, List.getElem?_take, if_pos h, stream_get _ _ _ _ _ _ _ (by omega) hj]

theorem beBytes_wrap (i : Nat) : Spec.beBytes 4 (i + 2 ^ 32) = Spec.beBytes 4 i := by
  rw [beBytes4, beBytes4]
  simp only [List.cons.injEq, and_true]
  refine ⟨?_, ?_, ?_, ?_⟩ <;> apply BitVec.eq_of_toNat_eq <;> simp only [BitVec.toNat_ofNat] <;> omega

theorem F_wrap (prf : List U8 → List U8 → List U8) (P S : List U8) (c i : Nat) :
    F prf P S c (i + 2 ^ 32) = F prf P S c i := by
  have : ∀ j, U prf P S (i + 2 ^ 32) j = U prf P S i j := by
    intro j
    induction j with
    | zero => rw [U, U, beBytes_wrap]
    | succ j ih => rw [U, U, ih]
  simp only [F, this]

/-! ### Panics -/

theorem derive_block_err (T : Target) (P S : List U8) (c i : Nat) (hc : T.checks = true)
    (h : 2 ^ T.bits ≤ 8 * P.length ∨ 2 ^ T.bits ≤ 8 * (68 + S.length)) :
    derive_block T P S c i = .error .overflow := by
  unfold derive_block
  simp only [ctr_eq]
  by_cases hP : 8 * P.length < 2 ^ T.bits
  · have hS : 2 ^ T.bits ≤ 8 * (68 + S.length) := by omega
    obtain ⟨hm, h1, hK⟩ := new_keyed T P (.inr hP)
    have hl := hmacKey_length T P
    have hb : (Spec.beBytes 4 i).length = 4 := by simp [Spec.beBytes]
    rw [h1]; simp only [ok_bind]
    by_cases h2 : 64 + S.length < 2 ^ T.bits
    · obtain ⟨s, e2, hs⟩ := hK.inner.update' S (by simpa [hl] using h2)
      rw [HMac.update, e2]
      simp only [ok_bind, pure_eq_ok]
      by_cases h3 : 68 + S.length < 2 ^ T.bits
      · obtain ⟨s', e3, hs'⟩ := hs.update' (Spec.beBytes 4 i) (by simp [hl, hb]; omega)
        rw [HMac.update, e3]
        simp only [ok_bind, pure_eq_ok]
        rw [HMac.digest, hs'.digest_err hc (by simp [hl, hb]; omega) (by simp [hl, hb]; omega)]
        rfl
      · rw [HMac.update, hs.update_err hc _ (by simp [hl]; omega) (by simp [hl, hb]; omega)]
        rfl
    · rw [HMac.update, hK.inner.update_err hc _ (by have := T.two_pow_ge; simp [hl]; omega) (by simp [hl]; omega)]
      rfl
  · rw [new_err T P hc (by omega)]
    rfl

theorem pbkdf2_err (T : Target) (P S : List U8) (c : Nat) (out : List U8) (hc : T.checks = true)
    (h : 2 ^ T.bits ≤ 8 * P.length ∨ 2 ^ T.bits ≤ 8 * (68 + S.length)) (h0 : 0 < out.length) :
    pbkdf2_sha256 T P S c out = .error .overflow := by
  unfold pbkdf2_sha256
  rw [show DIGEST_SIZE = 32 from rfl]
  by_cases hbits : out.length + 32 < 2 ^ T.bits
  · rw [Target.add_ok _ hbits, ok_bind, Target.sub_ok _ (by omega), ok_bind]
    simp only
    rw [forRangeIncl, forRange_step _ _ (by omega), derive_block_err T P S c 1 hc h]
    rfl
  · have : T.add out.length 32 = .error .overflow := by simp [Target.add, hbits, hc]
    rw [this]
    rfl

theorem pbkdf2_empty (T : Target) (P S : List U8) (c : Nat) : pbkdf2_sha256 T P S c [] = .ok [] := by
  unfold pbkdf2_sha256
  rw [show DIGEST_SIZE = 32 from rfl, Target.add_ok _ (by have := T.two_pow_ge; simp; omega), ok_bind,
    Target.sub_ok _ (by omega), ok_bind]
  rw [forRangeIncl, forRange_self _ _ (by simp)]

end Verif.Pbkdf2
