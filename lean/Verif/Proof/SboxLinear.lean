import Verif.Proof.Trail
import Verif.Spec.Linear
import Mathlib.Data.Fintype.EquivFin

/-! Linear approximations of the S-box of AES. -/

set_option linter.constructorNameAsVariable false

namespace Verif.Linear
open Verif Verif.Aes Spec.Aes Verif.WideTrail Verif.Trail Spec.Games

/-! ### A pairing of bytes -/

/-- The last bit of the product. -/
def pair (u x : Spec.Byte) : Bool := (gmul u x).getLsbD 0

theorem pair_left (u v x : Spec.Byte) : pair (u ^^^ v) x = (pair u x ^^ pair v x) := by
  rw [pair, gmul_add_left, BitVec.getLsbD_xor]; rfl

theorem pair_right (u x y : Spec.Byte) : pair u (x ^^^ y) = (pair u x ^^ pair u y) := by
  rw [pair, gmul_add_right, BitVec.getLsbD_xor]; rfl

theorem pair_mul (u a x : Spec.Byte) : pair u (gmul a x) = pair (gmul u a) x := by rw [pair, pair, gmul_assoc]

theorem pair_comm (u x : Spec.Byte) : pair u x = pair x u := by rw [pair, pair, gmul_comm]

theorem pair_zero (u : Spec.Byte) : pair u 0 = false := by rw [pair, gmul_zero_right]; rfl
theorem zero_pair (x : Spec.Byte) : pair 0 x = false := by rw [pair, gmul_zero_left]; rfl

theorem pair_inv {u : Spec.Byte} (h : u ≠ 0) : pair u (ginv u) = true := by rw [pair, ginv_spec u h]; rfl

/-- Linear functions that agree on the eight powers of `x` agree. -/
theorem bool_ext (f g : Spec.Byte → Bool) (hf : LinearByte f) (hg : LinearByte g)
    (h : ∀ i : Fin 8, f (1#8 <<< i.val) = g (1#8 <<< i.val)) (b : Spec.Byte) : f b = g b := by
  have := linear_ext (fun b => if f b then 1 else 0) (fun b => if g b then 1 else 0) (fun a b => by
      rw [hf]; cases f a <;> cases f b <;> rfl) (fun a b => by rw [hg]; cases g a <;> cases g b <;> rfl) (fun i => by rw [h i]) b
  cases hf : f b <;> cases hg : g b <;> simp_all

/-- Every linear function is one of these. -/
theorem exists_pair (f : Spec.Byte → Bool) (hf : LinearByte f) : ∃ u, f = pair u := by
  have hi : Function.Injective fun (u : Spec.Byte) (i : Fin 8) => pair u (1#8 <<< i.val) := by
    intro u v h
    by_contra hn
    have hx : u ^^^ v ≠ 0 := fun e => hn (xor_eq_zero.mp e)
    have := bool_ext (pair u) (pair v) (pair_right u) (pair_right v) (fun i => congrFun h i) (ginv (u ^^^ v))
    have h1 := pair_inv hx
    rw [pair_left, this] at h1
    simp at h1
  have hs := ((Fintype.bijective_iff_injective_and_card _).2 ⟨hi, by rw [card_byte]; simp⟩).2
  obtain ⟨u, hu⟩ := hs fun i => f (1#8 <<< i.val)
  exact ⟨u, funext fun b => (bool_ext _ _ (pair_right u) hf (fun i => congrFun hu i) b).symm⟩

/-! ### The Kloosterman sums -/

/-- The parity of the bits of a number below 256. -/
def par (n : Nat) : Bool := 47758914269546354982683078068829456704164423862093743397580034411621752859030 >>> n % 2 == 1

/-- The parity of a byte. -/
def parity (x : Spec.Byte) : Bool := x.getLsbD 0 ^^ x.getLsbD 1 ^^ x.getLsbD 2 ^^ x.getLsbD 3 ^^ x.getLsbD 4 ^^ x.getLsbD 5 ^^
  x.getLsbD 6 ^^ x.getLsbD 7

theorem par_eq : ∀ t : Fin 256, par t.val = parity (BitVec.ofNat 8 t.val) := by decide +kernel

theorem parity_xor (a b : Spec.Byte) : parity (a ^^^ b) = (parity a ^^ parity b) := by
  have h (a b c d : Bool) : ((a ^^ b) ^^ (c ^^ d)) = ((a ^^ c) ^^ (b ^^ d)) := by cases a <;> cases b <;> cases c <;> cases d <;> rfl
  simp only [parity, BitVec.getLsbD_xor]
  rw [h _ (a.getLsbD 7) _ (b.getLsbD 7), h _ (a.getLsbD 6) _ (b.getLsbD 6), h _ (a.getLsbD 5) _ (b.getLsbD 5),
    h _ (a.getLsbD 4) _ (b.getLsbD 4), h _ (a.getLsbD 3) _ (b.getLsbD 3), h _ (a.getLsbD 2) _ (b.getLsbD 2),
    h _ (a.getLsbD 1) _ (b.getLsbD 1)]

theorem parity_and (m : Spec.Byte) : LinearByte fun x => parity (x &&& m) := by
  intro a b
  have : (a ^^^ b) &&& m = (a &&& m) ^^^ (b &&& m) := by
    refine BitVec.eq_of_getLsbD_eq fun i _ => ?_
    rw [BitVec.getLsbD_and, BitVec.getLsbD_xor, BitVec.getLsbD_xor, BitVec.getLsbD_and, BitVec.getLsbD_and, Bool.and_xor_distrib_right]
  show parity _ = _
  rw [this, parity_xor]

/-- The pairing with the powers of `x`, as masks. -/
def row : Vector Spec.Byte 8 := #v[0x1, 0x80, 0x40, 0x20, 0x10, 0x88, 0xc4, 0x62]

theorem row_basis : ∀ i j : Fin 8, pair (1#8 <<< i.val) (1#8 <<< j.val) = parity (1#8 <<< j.val &&& row[i]) := by decide +kernel

theorem row_eq (i : Fin 8) (x : Spec.Byte) : pair (1#8 <<< i.val) x = parity (x &&& row[i]) :=
  bool_ext _ _ (pair_right _) (parity_and _) (row_basis i) x

set_option maxRecDepth 100000 in
/-- The pairing with the inverse of a byte, as masks. -/
def maskTable : Vector Spec.Byte 256 := #v[
  0x00, 0x01, 0x03, 0xfe, 0x07, 0x54, 0xfd, 0xb7, 0x0e, 0x25, 0xa9, 0xa6, 0xfa, 0x2f, 0x6f, 0x67, 0x1c, 0xba, 0x4a, 0x65,
  0x53, 0x29, 0x4c, 0x35, 0xf4, 0x79, 0x5f, 0xc6, 0xdf, 0xc4, 0xce, 0x7a, 0x38, 0xac, 0x74, 0x3f, 0x95, 0xa5, 0xca, 0x87,
  0xa7, 0xa0, 0x52, 0x51, 0x98, 0x84, 0x6a, 0x26, 0xe8, 0x85, 0xf2, 0x2c, 0xbf, 0xb9, 0x8c, 0x44, 0xbe, 0xd9, 0x88, 0xad,
  0x9d, 0x5b, 0xf5, 0x31, 0x71, 0xde, 0x59, 0x8d, 0xe9, 0x99, 0x7f, 0x6d, 0x2b, 0x0c, 0x4b, 0x91, 0x94, 0xc9, 0x0f, 0x21,
  0x4f, 0xb4, 0x41, 0x06, 0xa4, 0xc8, 0xa3, 0x1b, 0x30, 0x78, 0x08, 0x3e, 0xd5, 0x4e, 0x4d, 0xd1, 0xd0, 0x34, 0x0b, 0x37,
  0xe5, 0x2a, 0x58, 0x45, 0x7e, 0x05, 0x73, 0x57, 0x19, 0xf3, 0x89, 0x39, 0x7d, 0x3b, 0xb3, 0x23, 0x10, 0xbb, 0x5a, 0xf8,
  0x3a, 0x5c, 0xb6, 0xc0, 0xeb, 0x9e, 0x63, 0xe2, 0xe3, 0xbc, 0xbd, 0x62, 0xb2, 0xdd, 0x1a, 0x14, 0xd3, 0x92, 0x33, 0x97,
  0xff, 0x80, 0xdb, 0xaa, 0x56, 0xec, 0x18, 0x2d, 0x96, 0xc2, 0x22, 0xdc, 0x28, 0x50, 0x93, 0x42, 0x1f, 0xd6, 0x43, 0xd2,
  0x9f, 0x3c, 0x68, 0x27, 0x83, 0xda, 0x0d, 0xe4, 0x48, 0x86, 0x90, 0x64, 0x46, 0xef, 0x36, 0xcc, 0x60, 0x2e, 0xf1, 0xcf,
  0x11, 0x1d, 0x7c, 0x5d, 0xab, 0x82, 0x9c, 0xf9, 0x9b, 0x9a, 0xa2, 0x15, 0xa1, 0xa8, 0x69, 0x6b, 0x16, 0xf6, 0x6e, 0xe1,
  0xcb, 0x49, 0x55, 0x40, 0xb1, 0x5e, 0x8a, 0xee, 0xfc, 0xc1, 0x0a, 0xcd, 0xe7, 0x17, 0xae, 0x8e, 0x32, 0xc3, 0xe6, 0xf7,
  0x13, 0x1e, 0x72, 0xed, 0xfb, 0x61, 0x76, 0x8f, 0x66, 0xe0, 0x47, 0x8b, 0x20, 0x24, 0x77, 0xaf, 0xb5, 0xd4, 0xf0, 0x7b,
  0x75, 0x09, 0xb8, 0xd8, 0x6c, 0x04, 0x81, 0x02, 0xd7, 0x12, 0x3d, 0xea, 0xc7, 0xb0, 0xc5, 0x70]

def invMask (y : Spec.Byte) : Spec.Byte := maskTable[y.toNat]'y.isLt

theorem invMask_bit : ∀ (t : Fin 256) (i : Fin 8), parity (1#8 <<< i.val &&& maskTable[t.val]) =
    parity (invTable[t.val] &&& row[i]) := by decide +kernel

theorem pair_ginv (c y : Spec.Byte) : pair c (ginv y) = parity (c &&& invMask y) := by
  refine bool_ext (fun c => pair c (ginv y)) _ (fun a b => pair_left a b _) (parity_and _) (fun i => ?_) c
  rw [row_eq, ginv_table]
  refine forall_byte (P := fun y => parity (invTable[y.toNat]'y.isLt &&& row[i]) = parity (1#8 <<< i.val &&& invMask y)) (fun t => ?_) y
  simp only [invMask, BitVec.toNat_ofNat, Nat.reducePow, Nat.mod_eq_of_lt t.isLt]
  exact (invMask_bit t i).symm

set_option maxRecDepth 100000 in
/-- The bytes with these masks. -/
def masks : List (Nat × Nat) := [
  (0, 0), (1, 1), (2, 3), (3, 254), (4, 7), (5, 84), (6, 253), (7, 183), (8, 14), (9, 37), (10, 169), (11, 166), (12, 250),
  (13, 47), (14, 111), (15, 103), (16, 28), (17, 186), (18, 74), (19, 101), (20, 83), (21, 41), (22, 76), (23, 53), (24,
  244), (25, 121), (26, 95), (27, 198), (28, 223), (29, 196), (30, 206), (31, 122), (32, 56), (33, 172), (34, 116), (35, 63),
  (36, 149), (37, 165), (38, 202), (39, 135), (40, 167), (41, 160), (42, 82), (43, 81), (44, 152), (45, 132), (46, 106), (47,
  38), (48, 232), (49, 133), (50, 242), (51, 44), (52, 191), (53, 185), (54, 140), (55, 68), (56, 190), (57, 217), (58, 136),
  (59, 173), (60, 157), (61, 91), (62, 245), (63, 49), (64, 113), (65, 222), (66, 89), (67, 141), (68, 233), (69, 153), (70,
  127), (71, 109), (72, 43), (73, 12), (74, 75), (75, 145), (76, 148), (77, 201), (78, 15), (79, 33), (80, 79), (81, 180),
  (82, 65), (83, 6), (84, 164), (85, 200), (86, 163), (87, 27), (88, 48), (89, 120), (90, 8), (91, 62), (92, 213), (93, 78),
  (94, 77), (95, 209), (96, 208), (97, 52), (98, 11), (99, 55), (100, 229), (101, 42), (102, 88), (103, 69), (104, 126),
  (105, 5), (106, 115), (107, 87), (108, 25), (109, 243), (110, 137), (111, 57), (112, 125), (113, 59), (114, 179), (115,
  35), (116, 16), (117, 187), (118, 90), (119, 248), (120, 58), (121, 92), (122, 182), (123, 192), (124, 235), (125, 158),
  (126, 99), (127, 226), (128, 227), (129, 188), (130, 189), (131, 98), (132, 178), (133, 221), (134, 26), (135, 20), (136,
  211), (137, 146), (138, 51), (139, 151), (140, 255), (141, 128), (142, 219), (143, 170), (144, 86), (145, 236), (146, 24),
  (147, 45), (148, 150), (149, 194), (150, 34), (151, 220), (152, 40), (153, 80), (154, 147), (155, 66), (156, 31), (157,
  214), (158, 67), (159, 210), (160, 159), (161, 60), (162, 104), (163, 39), (164, 131), (165, 218), (166, 13), (167, 228),
  (168, 72), (169, 134), (170, 144), (171, 100), (172, 70), (173, 239), (174, 54), (175, 204), (176, 96), (177, 46), (178,
  241), (179, 207), (180, 17), (181, 29), (182, 124), (183, 93), (184, 171), (185, 130), (186, 156), (187, 249), (188, 155),
  (189, 154), (190, 162), (191, 21), (192, 161), (193, 168), (194, 105), (195, 107), (196, 22), (197, 246), (198, 110), (199,
  225), (200, 203), (201, 73), (202, 85), (203, 64), (204, 177), (205, 94), (206, 138), (207, 238), (208, 252), (209, 193),
  (210, 10), (211, 205), (212, 231), (213, 23), (214, 174), (215, 142), (216, 50), (217, 195), (218, 230), (219, 247), (220,
  19), (221, 30), (222, 114), (223, 237), (224, 251), (225, 97), (226, 118), (227, 143), (228, 102), (229, 224), (230, 71),
  (231, 139), (232, 32), (233, 36), (234, 119), (235, 175), (236, 181), (237, 212), (238, 240), (239, 123), (240, 117), (241,
  9), (242, 184), (243, 216), (244, 108), (245, 4), (246, 129), (247, 2), (248, 215), (249, 18), (250, 61), (251, 234), (252,
  199), (253, 176), (254, 197), (255, 112)]

theorem masks_eq : masks = (List.range 256).map fun y => (y, (invMask (BitVec.ofNat 8 y)).toNat) := by decide +kernel

/-- How often the two bits agree. -/
def agree (c : Nat) : Nat := masks.countP fun a => (a.1 % 2 == 1) == par (c &&& a.2)

theorem agree_all : ∀ c : Fin 256, c ≠ 0 → 112 ≤ agree c.val ∧ agree c.val ≤ 144 := by decide +kernel

end Verif.Linear
