import Verif.Spec.Aes
import Verif.Model.Aes
import Verif.Proof.Basics

/-! AES: the field GF(2^8), the tables and `mul`. -/

namespace Verif.Aes
open Verif Spec.Aes

/-! ### GF(2^8): bilinearity -/

abbrev Byte := Spec.Byte

theorem bxor_comm (a b : BitVec n) : a ^^^ b = b ^^^ a := BitVec.xor_comm a b
theorem bxor_left_comm (a b c : BitVec n) : a ^^^ (b ^^^ c) = b ^^^ (a ^^^ c) := by
  rw [← BitVec.xor_assoc, ← BitVec.xor_assoc, BitVec.xor_comm a b]

theorem bxor4 (a b c d : BitVec n) : (a ^^^ b) ^^^ (c ^^^ d) = (a ^^^ c) ^^^ (b ^^^ d) := by
  rw [BitVec.xor_assoc, BitVec.xor_assoc, bxor_left_comm b c d]

theorem bxor_right_comm (a b c : BitVec n) : (a ^^^ b) ^^^ c = (a ^^^ c) ^^^ b := by
  rw [BitVec.xor_assoc, BitVec.xor_comm b c, BitVec.xor_assoc]

/-- Folding a list of conditional xors, the condition and the summand depending only on the index. -/
theorem fold_mul_add (l : List Nat) (a a' : Spec.Byte) (b : Spec.Byte) (x y : BitVec 16) :
    l.foldl (fun acc i => if b.getLsbD i then acc ^^^ ((a ^^^ a').setWidth 16 <<< i) else acc) (x ^^^ y)
      = l.foldl (fun acc i => if b.getLsbD i then acc ^^^ (a.setWidth 16 <<< i) else acc) x
        ^^^ l.foldl (fun acc i => if b.getLsbD i then acc ^^^ (a'.setWidth 16 <<< i) else acc) y := by
  induction l generalizing x y with
  | nil => rfl
  | cons i l ih =>
    simp only [List.foldl_cons]
    rw [← ih]
    congr 1
    by_cases h : b.getLsbD i = true
    · simp only [h, if_true, BitVec.setWidth_xor, BitVec.shiftLeft_xor_distrib]
      exact bxor4 _ _ _ _
    · simp only [h]
      rfl

theorem fold_mul_add_right (l : List Nat) (a b b' : Spec.Byte) (x y : BitVec 16) :
    l.foldl (fun acc i => if (b ^^^ b').getLsbD i then acc ^^^ (a.setWidth 16 <<< i) else acc) (x ^^^ y)
      = l.foldl (fun acc i => if b.getLsbD i then acc ^^^ (a.setWidth 16 <<< i) else acc) x
        ^^^ l.foldl (fun acc i => if b'.getLsbD i then acc ^^^ (a.setWidth 16 <<< i) else acc) y := by
  induction l generalizing x y with
  | nil => rfl
  | cons i l ih =>
    simp only [List.foldl_cons]
    rw [← ih]
    congr 1
    rw [BitVec.getLsbD_xor]
    generalize a.setWidth 16 <<< i = s
    cases b.getLsbD i <;> cases b'.getLsbD i
    · rfl
    · simp [BitVec.xor_assoc]
    · exact bxor_right_comm _ _ _
    · simp only [Bool.true_xor, Bool.not_true, if_true, Bool.false_eq_true, if_false]
      rw [bxor4]
      simp

theorem fold_mod_add (l : List Nat) (x y : BitVec 16) :
    l.foldl (fun acc i => if acc.getLsbD (8 + i) then acc ^^^ (0x11b#16 <<< i) else acc) (x ^^^ y)
      = l.foldl (fun acc i => if acc.getLsbD (8 + i) then acc ^^^ (0x11b#16 <<< i) else acc) x
        ^^^ l.foldl (fun acc i => if acc.getLsbD (8 + i) then acc ^^^ (0x11b#16 <<< i) else acc) y := by
  induction l generalizing x y with
  | nil => rfl
  | cons i l ih =>
    simp only [List.foldl_cons]
    rw [← ih]
    congr 1
    rw [BitVec.getLsbD_xor]
    generalize (0x11b#16 <<< i) = s
    cases x.getLsbD (8 + i) <;> cases y.getLsbD (8 + i)
    · rfl
    · simp [BitVec.xor_assoc]
    · exact bxor_right_comm _ _ _
    · simp only [Bool.true_xor, Bool.not_true, if_true, Bool.false_eq_true, if_false]
      rw [bxor4]
      simp

theorem polyMod_add (x y : BitVec 16) : polyMod (x ^^^ y) = polyMod x ^^^ polyMod y := by
  simp only [polyMod, fold_mod_add, BitVec.setWidth_xor]

theorem gmul_add_left (a a' b : Spec.Byte) : gmul (a ^^^ a') b = gmul a b ^^^ gmul a' b := by
  rw [gmul, gmul, gmul, ← polyMod_add]
  congr 1
  have := fold_mul_add (List.range 8) a a' b 0 0
  simpa [polyMul] using this

theorem gmul_add_right (a b b' : Spec.Byte) : gmul a (b ^^^ b') = gmul a b ^^^ gmul a b' := by
  rw [gmul, gmul, gmul, ← polyMod_add]
  congr 1
  have := fold_mul_add_right (List.range 8) a b b' 0 0
  simpa [polyMul] using this

/-- A byte is the sum of its bits. -/
def bitSum (b : Spec.Byte) (n : Nat) : Spec.Byte :=
  (List.range n).foldl (fun acc i => if b.getLsbD i then acc ^^^ (1#8 <<< i) else acc) 0

theorem bitSum_bit (b : Spec.Byte) (n : Nat) (hn : n ≤ 8) (j : Nat) :
    (bitSum b n).getLsbD j = (decide (j < n) && b.getLsbD j) := by
  induction n with
  | zero => simp [bitSum]
  | succ n ih =>
    have e : bitSum b (n + 1) = if b.getLsbD n then bitSum b n ^^^ (1#8 <<< n) else bitSum b n := by
      simp [bitSum, List.range_succ]
    rw [e]
    by_cases h : b.getLsbD n = true
    · rw [if_pos h, BitVec.getLsbD_xor, ih (by omega)]
      by_cases hj : j = n
      · subst hj; simp [h]; omega
      · have h1 : (1#8 <<< n).getLsbD j = false := by
          simp only [BitVec.getLsbD_shiftLeft, BitVec.getLsbD_one]
          by_cases h2 : j < n
          · simp [h2]
          · simp; omega
        rw [h1, Bool.xor_false]
        congr 1
        simp; omega
    · rw [if_neg h, ih (by omega)]
      by_cases hj : j = n
      · subst hj; simp at h; simp [h]
      · congr 1; simp; omega

theorem bitSum_eq (b : Spec.Byte) : bitSum b 8 = b := by
  apply BitVec.eq_of_getLsbD_eq
  intro i hi
  rw [bitSum_bit b 8 (by omega)]
  simp [hi]

/-- Two additive functions on bytes which agree on the eight powers of `x` are equal. -/
theorem linear_ext (f g : Spec.Byte → Spec.Byte) (hf : ∀ a b, f (a ^^^ b) = f a ^^^ f b)
    (hg : ∀ a b, g (a ^^^ b) = g a ^^^ g b) (h : ∀ i : Fin 8, f (1#8 <<< i.val) = g (1#8 <<< i.val)) (b : Spec.Byte) :
    f b = g b := by
  have f0 : f 0 = 0 := by
    have := hf 0 0
    simp at this
    exact this
  have g0 : g 0 = 0 := by
    have := hg 0 0
    simp at this
    exact this
  suffices ∀ n, n ≤ 8 → f (bitSum b n) = g (bitSum b n) by
    have := this 8 (by omega)
    rwa [bitSum_eq] at this
  intro n
  induction n with
  | zero => intro _; exact f0.trans g0.symm
  | succ n ih =>
    intro hn
    have e : bitSum b (n + 1) = if b.getLsbD n then bitSum b n ^^^ (1#8 <<< n) else bitSum b n := by
      simp [bitSum, List.range_succ]
    rw [e]
    split
    · rw [hf, hg, ih (by omega), h ⟨n, by omega⟩]
    · exact ih (by omega)

theorem gmul_comm_basis : ∀ i j : Fin 8, gmul (1#8 <<< i.val) (1#8 <<< j.val) = gmul (1#8 <<< j.val) (1#8 <<< i.val) := by
  decide +kernel

theorem gmul_comm (a b : Spec.Byte) : gmul a b = gmul b a := by
  refine linear_ext (fun a => gmul a b) (fun a => gmul b a) (fun _ _ => gmul_add_left _ _ _)
    (fun _ _ => gmul_add_right _ _ _) (fun i => ?_) a
  exact linear_ext (fun b => gmul (1#8 <<< i.val) b) (fun b => gmul b (1#8 <<< i.val)) (fun _ _ => gmul_add_right _ _ _)
    (fun _ _ => gmul_add_left _ _ _) (fun j => gmul_comm_basis i j) b

set_option maxRecDepth 100000 in
theorem gmul_assoc_basis : ∀ i j k : Fin 8,
    gmul (gmul (1#8 <<< i.val) (1#8 <<< j.val)) (1#8 <<< k.val) = gmul (1#8 <<< i.val) (gmul (1#8 <<< j.val) (1#8 <<< k.val)) := by
  decide +kernel

theorem gmul_assoc (a b c : Spec.Byte) : gmul (gmul a b) c = gmul a (gmul b c) := by
  refine linear_ext (fun a => gmul (gmul a b) c) (fun a => gmul a (gmul b c)) (fun _ _ => ?_)
    (fun _ _ => gmul_add_left _ _ _) (fun i => ?_) a
  · simp only [gmul_add_left]
  refine linear_ext (fun b => gmul (gmul (1#8 <<< i.val) b) c) (fun b => gmul (1#8 <<< i.val) (gmul b c))
    (fun _ _ => ?_) (fun _ _ => ?_) (fun j => ?_) b
  · simp only [gmul_add_left, gmul_add_right]
  · simp only [gmul_add_left, gmul_add_right]
  exact linear_ext (fun c => gmul (gmul (1#8 <<< i.val) (1#8 <<< j.val)) c)
    (fun c => gmul (1#8 <<< i.val) (gmul (1#8 <<< j.val) c)) (fun _ _ => by simp only [gmul_add_right])
    (fun _ _ => by simp only [gmul_add_right]) (fun k => gmul_assoc_basis i j k) c

theorem gmul_one_left (a : Spec.Byte) : gmul 1 a = a :=
  linear_ext (fun a => gmul 1 a) (fun a => a) (fun _ _ => gmul_add_right _ _ _) (fun _ _ => rfl)
    (by decide +kernel) a

theorem gmul_one_right (a : Spec.Byte) : gmul a 1 = a := by rw [gmul_comm, gmul_one_left]

theorem gmul_zero_left (a : Spec.Byte) : gmul 0 a = 0 := by
  have := gmul_add_left 0 0 a
  simpa using this

/-! ### Inverses and the tables -/

theorem forall_byte {P : Spec.Byte → Prop} (h : ∀ t : Fin 256, P (BitVec.ofNat 8 t.val)) (b : Spec.Byte) : P b := by
  have := h ⟨b.toNat, b.isLt⟩
  simpa using this

theorem mem_allBytes (b : Spec.Byte) : b ∈ allBytes := by
  simp only [allBytes, List.mem_map, List.mem_range]
  exact ⟨b.toNat, b.isLt, by simp⟩

theorem find_unique (p : Spec.Byte → Bool) (a : Spec.Byte) (ha : p a = true) (hu : ∀ b, p b = true → b = a) :
    allBytes.find? p = some a := by
  cases h : allBytes.find? p with
  | none =>
    rw [List.find?_eq_none] at h
    exact absurd ha (h a (mem_allBytes a))
  | some b => rw [hu b (List.find?_some h)]

set_option maxRecDepth 100000 in
/-- The inverses of the 256 bytes (`0` for `0`). -/
def invTable : Vector Spec.Byte 256 := #v[
  0x00, 0x01, 0x8d, 0xf6, 0xcb, 0x52, 0x7b, 0xd1, 0xe8, 0x4f, 0x29, 0xc0, 0xb0, 0xe1, 0xe5, 0xc7,
  0x74, 0xb4, 0xaa, 0x4b, 0x99, 0x2b, 0x60, 0x5f, 0x58, 0x3f, 0xfd, 0xcc, 0xff, 0x40, 0xee, 0xb2,
  0x3a, 0x6e, 0x5a, 0xf1, 0x55, 0x4d, 0xa8, 0xc9, 0xc1, 0x0a, 0x98, 0x15, 0x30, 0x44, 0xa2, 0xc2,
  0x2c, 0x45, 0x92, 0x6c, 0xf3, 0x39, 0x66, 0x42, 0xf2, 0x35, 0x20, 0x6f, 0x77, 0xbb, 0x59, 0x19,
  0x1d, 0xfe, 0x37, 0x67, 0x2d, 0x31, 0xf5, 0x69, 0xa7, 0x64, 0xab, 0x13, 0x54, 0x25, 0xe9, 0x09,
  0xed, 0x5c, 0x05, 0xca, 0x4c, 0x24, 0x87, 0xbf, 0x18, 0x3e, 0x22, 0xf0, 0x51, 0xec, 0x61, 0x17,
  0x16, 0x5e, 0xaf, 0xd3, 0x49, 0xa6, 0x36, 0x43, 0xf4, 0x47, 0x91, 0xdf, 0x33, 0x93, 0x21, 0x3b,
  0x79, 0xb7, 0x97, 0x85, 0x10, 0xb5, 0xba, 0x3c, 0xb6, 0x70, 0xd0, 0x06, 0xa1, 0xfa, 0x81, 0x82,
  0x83, 0x7e, 0x7f, 0x80, 0x96, 0x73, 0xbe, 0x56, 0x9b, 0x9e, 0x95, 0xd9, 0xf7, 0x02, 0xb9, 0xa4,
  0xde, 0x6a, 0x32, 0x6d, 0xd8, 0x8a, 0x84, 0x72, 0x2a, 0x14, 0x9f, 0x88, 0xf9, 0xdc, 0x89, 0x9a,
  0xfb, 0x7c, 0x2e, 0xc3, 0x8f, 0xb8, 0x65, 0x48, 0x26, 0xc8, 0x12, 0x4a, 0xce, 0xe7, 0xd2, 0x62,
  0x0c, 0xe0, 0x1f, 0xef, 0x11, 0x75, 0x78, 0x71, 0xa5, 0x8e, 0x76, 0x3d, 0xbd, 0xbc, 0x86, 0x57,
  0x0b, 0x28, 0x2f, 0xa3, 0xda, 0xd4, 0xe4, 0x0f, 0xa9, 0x27, 0x53, 0x04, 0x1b, 0xfc, 0xac, 0xe6,
  0x7a, 0x07, 0xae, 0x63, 0xc5, 0xdb, 0xe2, 0xea, 0x94, 0x8b, 0xc4, 0xd5, 0x9d, 0xf8, 0x90, 0x6b,
  0xb1, 0x0d, 0xd6, 0xeb, 0xc6, 0x0e, 0xcf, 0xad, 0x08, 0x4e, 0xd7, 0xe3, 0x5d, 0x50, 0x1e, 0xb3,
  0x5b, 0x23, 0x38, 0x34, 0x68, 0x46, 0x03, 0x8c, 0xdd, 0x9c, 0x7d, 0xa0, 0xcd, 0x1a, 0x41, 0x1c]

set_option maxRecDepth 100000 in
theorem invTable_spec : ∀ t : Fin 256, t ≠ 0 → gmul (BitVec.ofNat 8 t.val) (invTable[t.val]) = 1 := by decide +kernel

theorem ginv_eq (b : Spec.Byte) (hb : b ≠ 0) : ∃ c, gmul b c = 1 := by
  refine ⟨invTable[b.toNat]'b.isLt, ?_⟩
  have := invTable_spec ⟨b.toNat, b.isLt⟩ (by
    intro h
    apply hb
    have := congrArg Fin.val h
    apply BitVec.eq_of_toNat_eq
    simpa using this)
  simpa using this

theorem ginv_unique {a b c : Spec.Byte} (h : gmul a b = 1) (h' : gmul a c = 1) : c = b := by
  have : gmul (gmul b a) c = b := by rw [gmul_assoc, h', gmul_one_right]
  rw [gmul_comm b a, h, gmul_one_left] at this
  exact this

theorem ginv_of_mul {a b : Spec.Byte} (h : gmul a b = 1) : ginv a = b := by
  rw [ginv, find_unique _ b (by simpa using h) (fun c hc => ginv_unique h (by simpa using hc))]
  rfl

theorem ginv_zero : ginv 0 = 0 := by
  have : allBytes.find? (fun c => gmul 0 c = 1) = none := by
    rw [List.find?_eq_none]
    intro x _
    rw [gmul_zero_left]
    decide
  rw [ginv, this]
  rfl

/-- `ginv` is the inverse. -/
theorem ginv_spec (b : Spec.Byte) (hb : b ≠ 0) : gmul b (ginv b) = 1 := by
  obtain ⟨c, hc⟩ := ginv_eq b hb
  rw [ginv_of_mul hc, hc]

theorem ginv_table (b : Spec.Byte) : ginv b = invTable[b.toNat]'b.isLt := by
  by_cases hb : b = 0
  · subst hb; rw [ginv_zero]; decide +kernel
  · apply ginv_of_mul
    have := invTable_spec ⟨b.toNat, b.isLt⟩ (by
      intro h
      apply hb
      have := congrArg Fin.val h
      apply BitVec.eq_of_toNat_eq
      simpa using this)
    simpa using this

set_option maxRecDepth 100000 in
theorem sbox_table : ∀ t : Fin 256, affine invTable[t.val] = SBOX[t.val] := by decide +kernel

theorem SBOX_eq (b : Spec.Byte) : SBOX[b.toNat]'b.isLt = sbox b := by
  rw [sbox, ginv_table]
  exact (sbox_table ⟨b.toNat, b.isLt⟩).symm

set_option maxRecDepth 100000 in
theorem inv_sbox_table : ∀ t : Fin 256, INV_SBOX[(SBOX[t.val]).toNat]'(SBOX[t.val]).isLt = BitVec.ofNat 8 t.val := by
  decide +kernel

set_option maxRecDepth 100000 in
theorem sbox_inv_table : ∀ t : Fin 256, SBOX[(INV_SBOX[t.val]).toNat]'(INV_SBOX[t.val]).isLt = BitVec.ofNat 8 t.val := by
  decide +kernel

theorem INV_SBOX_sbox (b : Spec.Byte) : INV_SBOX[(sbox b).toNat]'(sbox b).isLt = b := by
  have := inv_sbox_table ⟨b.toNat, b.isLt⟩
  simp only [SBOX_eq] at this
  simpa using this

theorem sbox_INV_SBOX (b : Spec.Byte) : sbox (INV_SBOX[b.toNat]'b.isLt) = b := by
  have := sbox_inv_table ⟨b.toNat, b.isLt⟩
  simp only [SBOX_eq] at this
  simpa using this

theorem sbox_injective {a b : Spec.Byte} (h : sbox a = sbox b) : a = b := by
  have ha := INV_SBOX_sbox a
  simp only [h] at ha
  rw [← ha, INV_SBOX_sbox b]

theorem INV_SBOX_eq (b : Spec.Byte) : INV_SBOX[b.toNat]'b.isLt = invSbox b := by
  rw [invSbox, find_unique _ (INV_SBOX[b.toNat]'b.isLt) (by simpa using sbox_INV_SBOX b)
    (fun c hc => sbox_injective (by
      rw [sbox_INV_SBOX]
      simpa using hc))]
  rfl

theorem invSbox_sbox (b : Spec.Byte) : invSbox (sbox b) = b := by rw [← INV_SBOX_eq, INV_SBOX_sbox]
theorem sbox_invSbox (b : Spec.Byte) : sbox (invSbox b) = b := by rw [← INV_SBOX_eq, sbox_INV_SBOX]

/-! ### `mul` -/

theorem double_eq (b : U8) : double b = gmul 2 b :=
  forall_byte (P := fun b => double b = gmul 2 b) (by decide +kernel) b

theorem g22 : gmul 2 2 = 4#8 := by decide +kernel
theorem g24 : gmul 2 4 = 8#8 := by decide +kernel

theorem mul_2 (b : U8) : mul b 2 = gmul 0x02 b := by
  simp [mul, mulLoop, double_eq]

theorem mul_3 (b : U8) : mul b 3 = gmul 0x03 b := by
  simp [mul, mulLoop, double_eq]
  rw [show (3#8 : Spec.Byte) = 1 ^^^ 2 by decide, gmul_add_left, gmul_one_left]
  rfl

theorem mul_9 (b : U8) : mul b 0x09 = gmul 0x09 b := by
  simp [mul, mulLoop, double_eq]
  simp only [← gmul_assoc, ← BitVec.ofNat_eq_ofNat]
  rw [show gmul (gmul 2 2) 2 = (8 : Spec.Byte) by decide +kernel, show (9 : Spec.Byte) = 1 ^^^ 8 by decide,
    gmul_add_left, gmul_one_left]

theorem mul_b (b : U8) : mul b 0x0b = gmul 0x0b b := by
  simp [mul, mulLoop, double_eq]
  simp only [← gmul_assoc, ← BitVec.ofNat_eq_ofNat]
  rw [show gmul (gmul 2 2) 2 = (8 : Spec.Byte) by decide +kernel, show (0x0b : Spec.Byte) = 1 ^^^ 2 ^^^ 8 by decide,
    gmul_add_left, gmul_add_left, gmul_one_left]

theorem mul_d (b : U8) : mul b 0x0d = gmul 0x0d b := by
  simp [mul, mulLoop, double_eq]
  simp only [← gmul_assoc, ← BitVec.ofNat_eq_ofNat]
  rw [show gmul (gmul 2 2) 2 = (8 : Spec.Byte) by decide +kernel, show gmul 2 2 = (4 : Spec.Byte) by decide +kernel,
    show (0x0d : Spec.Byte) = 1 ^^^ 4 ^^^ 8 by decide, gmul_add_left, gmul_add_left, gmul_one_left]

theorem mul_e (b : U8) : mul b 0x0e = gmul 0x0e b := by
  simp [mul, mulLoop, double_eq]
  simp only [← gmul_assoc, ← BitVec.ofNat_eq_ofNat]
  rw [show gmul (gmul 2 2) 2 = (8 : Spec.Byte) by decide +kernel, show gmul 2 2 = (4 : Spec.Byte) by decide +kernel,
    show (0x0e : Spec.Byte) = 2 ^^^ 4 ^^^ 8 by decide, gmul_add_left, gmul_add_left]

end Verif.Aes
