import Verif.Model.Pkcs7
import Verif.Proof.Basics
import Verif.Spec.Cbc

/-! `pkcs7.rs`: what `write` and `flush` emit and keep. -/

namespace Verif.Pkcs7
open Verif

/-- How many of `n` bytes a `Pad` has emitted. -/
def padCut (k n : Nat) : Nat := k * (n / k)

/-- How many of `n` bytes an `Unpad` has emitted. -/
def unpadCut (k n : Nat) : Nat := k * ((n - 1) / k)

theorem padCut_le (k n : Nat) : padCut k n ≤ n := by
  rw [padCut, Nat.mul_comm]; exact Nat.div_mul_le_self n k

theorem unpadCut_le (k n : Nat) : unpadCut k n ≤ n := by
  rw [unpadCut, Nat.mul_comm]; exact Nat.le_trans (Nat.div_mul_le_self (n - 1) k) (by omega)

theorem padCut_rest (k n : Nat) : n - padCut k n = n % k := by
  have := Nat.div_add_mod n k
  rw [padCut]; omega

theorem padCut_step (k n n' : Nat) (h : n ≤ n') :
    padCut k n + padCut k (n' - padCut k n) = padCut k n' := by
  simp only [padCut]
  rw [← Nat.mul_add]
  congr 1
  rw [Nat.sub_mul_div]
  have := Nat.div_le_div_right (c := k) h
  omega

theorem unpadCut_step (k n n' : Nat) (h : n ≤ n') :
    unpadCut k n + unpadCut k (n' - unpadCut k n) = unpadCut k n' := by
  simp only [unpadCut]
  rw [← Nat.mul_add]
  congr 1
  rw [show n' - k * ((n - 1) / k) - 1 = (n' - 1) - k * ((n - 1) / k) by omega, Nat.sub_mul_div]
  have := Nat.div_le_div_right (c := k) (show n - 1 ≤ n' - 1 by omega)
  omega

/-! ### `Pad` -/

theorem pad_write (T : Target) (k : Nat) (hk : 1 ≤ k) (s buf : List U8) :
    ∃ o, Pad.write T ⟨k, s⟩ buf = .ok (⟨k, (s ++ buf).drop (padCut k (s ++ buf).length)⟩, o) ∧
      o.getD [] = (s ++ buf).take (padCut k (s ++ buf).length) ∧ (o = none ↔ (s ++ buf).length < k) := by
  unfold Pad.write
  simp only []
  by_cases h : (s ++ buf).length < k
  · refine ⟨none, ?_, ?_, iff_of_true rfl h⟩
    · rw [if_pos h, padCut, Nat.div_eq_of_lt h]
      rfl
    · rw [padCut, Nat.div_eq_of_lt h]
      simp
  · refine ⟨some ((s ++ buf).take (padCut k (s ++ buf).length)), ?_, rfl, by simp only [h]; simp⟩
    have e : (s ++ buf).length - (s ++ buf).length % k = padCut k (s ++ buf).length := by
      have := Nat.div_add_mod (s ++ buf).length k
      rw [padCut]; omega
    rw [if_neg h, T.rem_ok (by omega)]
    simp only [ok_bind]
    rw [T.sub_ok (Nat.mod_le _ _)]
    simp only [ok_bind, e]
    rfl

theorem pad_flush (T : Target) (k : Nat) (s : List U8) (h : s.length ≤ k) :
    Pad.flush T ⟨k, s⟩ = .ok (⟨k, []⟩, s ++ List.replicate (k - s.length) (BitVec.ofNat 8 (k - s.length))) := by
  unfold Pad.flush
  simp only []
  rw [T.sub_ok h]
  rfl

/-! ### `Unpad` -/

theorem unpad_write (T : Target) (k : Nat) (hk : 1 ≤ k) (s buf : List U8) :
    ∃ o, Unpad.write T ⟨k, s⟩ buf = .ok (⟨k, (s ++ buf).drop (unpadCut k (s ++ buf).length)⟩, o) ∧
      o.getD [] = (s ++ buf).take (unpadCut k (s ++ buf).length) := by
  unfold Unpad.write
  simp only []
  by_cases h : (s ++ buf).length ≤ k
  · refine ⟨none, ?_, ?_⟩
    · rw [if_pos h, unpadCut, Nat.div_eq_of_lt (by omega)]
      rfl
    · rw [unpadCut, Nat.div_eq_of_lt (by omega)]
      simp
  · refine ⟨some ((s ++ buf).take (unpadCut k (s ++ buf).length)), ?_, rfl⟩
    generalize hd : s ++ buf = d at *
    have e : d.length - (if d.length % k = 0 then k else d.length % k) = unpadCut k d.length := by
      have h1 := Nat.div_add_mod d.length k
      have h2 := Nat.mod_lt d.length (show k > 0 by omega)
      rw [unpadCut]
      split
      · next h0 =>
        obtain ⟨q, hq⟩ : ∃ q, d.length / k = q + 1 := ⟨d.length / k - 1, by
          have := (Nat.one_le_div_iff (show 0 < k by omega)).2 (show k ≤ d.length by omega)
          omega⟩
        have h3 : d.length = k * q + k := by rw [hq, Nat.mul_succ] at h1; omega
        have h4 : (d.length - 1) / k = q := by
          rw [h3, show k * q + k - 1 = k * q + (k - 1) by omega, Nat.mul_add_div (by omega), Nat.div_eq_of_lt (by omega)]
          omega
        rw [h4]; omega
      · next h0 =>
        have h4 : (d.length - 1) / k = d.length / k := by
          conv => lhs; rw [← h1]
          rw [show k * (d.length / k) + d.length % k - 1 = k * (d.length / k) + (d.length % k - 1) by omega,
            Nat.mul_add_div (by omega), Nat.div_eq_of_lt (show d.length % k - 1 < k by omega)]
          rfl
        rw [h4]; omega
    have hle : (if d.length % k = 0 then k else d.length % k) ≤ d.length := by
      have h2 := Nat.mod_le d.length k
      split <;> omega
    rw [if_neg h, T.rem_ok (by omega)]
    simp only [ok_bind]
    rw [T.sub_ok hle]
    simp only [ok_bind, e]
    rfl

/-- The accumulated differences are zero exactly if all bytes are equal. -/
theorem foldl_or_eq_zero (v : U8) (l : List U8) (acc : U8) :
    l.foldl (fun is_same b => is_same ||| (v ^^^ b)) acc = 0 ↔ acc = 0 ∧ ∀ b ∈ l, b = v := by
  induction l generalizing acc with
  | nil => simp
  | cons a l ih =>
    rw [List.foldl_cons, ih]
    have h1 : acc ||| (v ^^^ a) = 0 ↔ acc = 0 ∧ a = v := by
      rw [show (0 : U8) = 0#8 from rfl, BitVec.or_eq_zero_iff, BitVec.xor_eq_zero_iff]
      exact and_congr_right fun _ => eq_comm
    rw [h1]
    simp only [List.mem_cons, forall_eq_or_imp]
    constructor
    · rintro ⟨⟨a1, a2⟩, a3⟩; exact ⟨a1, a2, a3⟩
    · rintro ⟨a1, a2, a3⟩; exact ⟨⟨a1, a2⟩, a3⟩

/-- The padding check of `Unpad::flush` for block sizes that fit a byte: the last byte `v` is at most the block size and
the last `v` bytes all have the value `v`. -/
def padOk (k : Nat) (s : List U8) (v : U8) : Prop :=
  v.toNat ≤ k ∧ ∀ b ∈ s.drop (k - v.toNat), b = v

theorem unpad_flush_unfinished (T : Target) (k : Nat) (s : List U8) (h : s.length ≠ k) :
    Unpad.flush T ⟨k, s⟩ = .ok (⟨k, s⟩, .error .UnfinishedBlock) := by
  unfold Unpad.flush
  simp only []
  rw [if_pos h]
  rfl

theorem unpad_flush_full (T : Target) (k : Nat) (hk : 1 ≤ k) (hk' : k ≤ 255) (s : List U8) (v : U8) (h : s.length = k)
    (hv : s.getLast? = some v) :
    (padOk k s v → Unpad.flush T ⟨k, s⟩ = .ok (⟨k, []⟩, .ok (s.take (k - v.toNat)))) ∧
    (¬ padOk k s v → Unpad.flush T ⟨k, s⟩ = .ok (⟨k, s⟩, .error .InvalidPadding)) := by
  have hl : s[s.length - 1]'(by omega) = v := by
    rw [List.getLast?_eq_getElem?, List.getElem?_eq_getElem (by omega)] at hv
    exact Option.some.inj hv
  have hstart : ∀ R, (v.toNat ≤ k → (do
      let is_same := (← sliceFrom s (k - v.toNat)).foldl (fun is_same b => is_same ||| (v ^^^ b)) (0 : U8)
      if is_same ≠ 0 then
        return ((⟨k, s⟩ : Unpad), (Except.error .InvalidPadding : Except UnpadError (List U8)))
      let result ← slice s 0 (k - v.toNat)
      return (({ block_size := k, storage := [] } : Unpad), .ok result) : M _) = R) → v.toNat ≤ k →
      Unpad.flush T ⟨k, s⟩ = R := by
    intro R hR hle
    unfold Unpad.flush
    simp only []
    rw [if_neg (by simp [h]), T.sub_ok (by omega)]
    simp only [ok_bind]
    rw [idx_ok _ _ (by omega), hl]
    simp only [ok_bind]
    rw [if_neg, T.sub_ok hle]
    · simp only [ok_bind]
      exact hR hle
    · rw [gt_iff_lt, BitVec.lt_def, BitVec.toNat_ofNat, Nat.mod_eq_of_lt (by omega)]
      omega
  have hslice : sliceFrom s (k - v.toNat) = .ok (s.drop (k - v.toNat)) := by rw [sliceFrom, if_pos (by omega)]
  constructor
  · intro hp
    apply hstart _ _ hp.1
    intro _
    rw [hslice]
    simp only [ok_bind]
    rw [(foldl_or_eq_zero v _ 0).2 ⟨rfl, hp.2⟩, if_neg (by simp), slice, if_pos (by omega)]
    rfl
  · intro hp
    by_cases hle : v.toNat ≤ k
    · apply hstart _ _ hle
      intro _
      rw [hslice]
      simp only [ok_bind]
      rw [if_pos]
      · rfl
      · intro h0
        exact hp ⟨hle, ((foldl_or_eq_zero v _ 0).1 h0).2⟩
    · unfold Unpad.flush
      simp only []
      rw [if_neg (by simp [h]), T.sub_ok (by omega)]
      simp only [ok_bind]
      rw [idx_ok _ _ (by omega), hl]
      simp only [ok_bind]
      rw [if_pos]
      · rfl
      · rw [gt_iff_lt, BitVec.lt_def, BitVec.toNat_ofNat, Nat.mod_eq_of_lt (by omega)]
        omega

end Verif.Pkcs7
