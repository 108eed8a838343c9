import Verif.Source.Sig
import Verif.Model.Salsa20

/-! The functions of `src/salsa20.rs` compute what the model says. -/

set_option linter.constructorNameAsVariable false
set_option backward.isDefEq.respectTransparency false

namespace Verif.Source
open Verif Verif.Salsa20

variable (T : Target) (F d : Nat)

@[src] theorem const_salsa20_BLOCK_SIZE : constVal T crate .salsa20_BLOCK_SIZE = .ok (.usize 64) := rfl

theorem src_rotl (x : U32) (s : Nat) (h : 0 < s) (h' : s < 32) :
    call T crate F (d + 1) .salsa20_rotl [.u32 x, .u8 (BitVec.ofNat 8 s)] = .ok (.u32 (rotl x s), []) := by
  have h1 : (BitVec.ofNat 8 s).toNat = s := by simp; omega
  have e : (32#8 - BitVec.ofNat 8 s).toNat = 32 - s := by
    rw [BitVec.toNat_sub_of_le]; · rw [h1]; rfl
    · simp [BitVec.le_def]; omega
  rw [call_salsa20_rotl]
  evaluate [Gen.fn_salsa20_rotl, bvSub, Small.shl, Small.shr, checked, e, h1, rotl, show s ≤ 32 by omega,
    show s % 256 = s by omega]

theorem set4 {α : Type} (v : Vector α 4) (a b c e : α) :
    ((((v.set 1 b).set 2 c).set 3 e).set 0 a) = #v[a, b, c, e] := by
  ext i hi
  match i, hi with
  | 0, _ | 1, _ | 2, _ | 3, _ => simp
  | i + 4, h => exact absurd h (by omega)

@[src] theorem src_quarterround (a b c e : U32) (z : Vector U32 4) :
    call T crate F (d + 2) .salsa20_quarterround [.seq [.u32 a, .u32 b, .u32 c, .u32 e], words z.toList] =
      .ok (.unit, [words (quarterround #v[a, b, c, e]).toList]) := by
  rw [call_salsa20_quarterround]
  evaluate [Gen.fn_salsa20_quarterround, src_rotl, vidx_ok, vupd_ok, set4, quarterround, wrapping_sum]

theorem set16_row (v w : Vector U32 16) (a0 a1 a2 a3 b0 b1 b2 b3 c0 c1 c2 c3 e0 e1 e2 e3 : U32) :
    ((((((((((((((((v.set 0 a0).set 1 a1).set 2 a2).set 3 a3).set 5 b0).set 6 b1).set 7 b2).set 4 b3).set 10 c0).set 11
      c1).set 8 c2).set 9 c3).set 15 e0).set 12 e1).set 13 e2).set 14 e3) =
    ((((((((((((((((w.set 0 a0).set 1 a1).set 2 a2).set 3 a3).set 5 b0).set 6 b1).set 7 b2).set 4 b3).set 10 c0).set 11
      c1).set 8 c2).set 9 c3).set 15 e0).set 12 e1).set 13 e2).set 14 e3) := by
  ext i hi
  match i, hi with
  | 0, _ | 1, _ | 2, _ | 3, _ | 4, _ | 5, _ | 6, _ | 7, _ | 8, _ | 9, _ | 10, _ | 11, _ | 12, _ | 13, _ | 14, _ | 15, _ =>
    simp
  | i + 16, h => exact absurd h (by omega)

theorem set16_col (v w : Vector U32 16) (a0 a1 a2 a3 b0 b1 b2 b3 c0 c1 c2 c3 e0 e1 e2 e3 : U32) :
    ((((((((((((((((v.set 0 a0).set 4 a1).set 8 a2).set 12 a3).set 5 b0).set 9 b1).set 13 b2).set 1 b3).set 10 c0).set 14
      c1).set 2 c2).set 6 c3).set 15 e0).set 3 e1).set 7 e2).set 11 e3) =
    ((((((((((((((((w.set 0 a0).set 4 a1).set 8 a2).set 12 a3).set 5 b0).set 9 b1).set 13 b2).set 1 b3).set 10 c0).set 14
      c1).set 2 c2).set 6 c3).set 15 e0).set 3 e1).set 7 e2).set 11 e3) := by
  ext i hi
  match i, hi with
  | 0, _ | 1, _ | 2, _ | 3, _ | 4, _ | 5, _ | 6, _ | 7, _ | 8, _ | 9, _ | 10, _ | 11, _ | 12, _ | 13, _ | 14, _ | 15, _ =>
    simp
  | i + 16, h => exact absurd h (by omega)

@[src] theorem src_rowround (y z : Vector U32 16) :
    call T crate F (d + 3) .salsa20_rowround [words y.toList, words z.toList] =
      .ok (.unit, [words (rowround y).toList]) := by
  rw [call_salsa20_rowround]
  evaluate [Gen.fn_salsa20_rowround, vidx_ok, vupd_ok]
  simp only [rowround, set16_row z (Vector.replicate 16 0)]

@[src] theorem src_columnround (x y : Vector U32 16) :
    call T crate F (d + 3) .salsa20_columnround [words x.toList, words y.toList] =
      .ok (.unit, [words (columnround x).toList]) := by
  rw [call_salsa20_columnround]
  evaluate [Gen.fn_salsa20_columnround, vidx_ok, vupd_ok]
  simp only [columnround, set16_col y (Vector.replicate 16 0)]

@[src] theorem src_doubleround (x y : Vector U32 16) :
    call T crate F (d + 4) .salsa20_doubleround [words x.toList, words y.toList] =
      .ok (.unit, [words (doubleround x).toList]) := by
  rw [call_salsa20_doubleround]
  evaluate [Gen.fn_salsa20_doubleround, doubleround]

@[src] theorem src_littleendian (b : List U8) :
    call T crate F (d + 1) .salsa20_littleendian [bytes b] = up (littleendian b) >>= fun r => .ok (.u32 r, []) := by
  rw [call_salsa20_littleendian]
  evaluate [Gen.fn_salsa20_littleendian, littleendian, Small.shl]

@[src] theorem src_littleendian_inv (x : U32) (y : List U8) :
    call T crate F (d + 1) .salsa20_littleendian_inv [.u32 x, bytes y] =
      up (littleendian_inv x y) >>= fun r => .ok (.unit, [bytes r]) := by
  rw [call_salsa20_littleendian_inv]
  evaluate [Gen.fn_salsa20_littleendian_inv, littleendian_inv, Small.shr]

theorem littleendian_inv_ok (x : U32) (y : List U8) (h : y.length = 4) :
    littleendian_inv x y = .ok [x.setWidth 8, (x >>> 8).setWidth 8, (x >>> 16).setWidth 8, (x >>> 24).setWidth 8] := by
  match y, h with
  | [_, _, _, _], _ => rfl

/-- `x.iter().enumerate().zip(z.iter())` -/
theorem zip_enum (x z : Vector U32 16) :
    List.zipWith (fun a b => Val.tup [Val.tup [Val.usize a.2, a.1], Val.u32 b]) (x.toList.map Val.u32).zipIdx z.toList =
      (List.range' 0 16).map fun i => .tup [.tup [.usize i, .u32 (x[i]?.getD 0)], .u32 (z[i]?.getD 0)] := by
  apply List.ext_getElem
  · simp
  · intro i h1 h2
    simp at h2
    simp [h2]

@[src] theorem src_salsa20 (input output : List U8) (rounds : Nat) :
    call T crate F (d + 5) .salsa20_salsa20 [bytes input, .usize rounds, bytes output] =
      up (salsa20 input rounds output) >>= fun r => .ok (.unit, [bytes r]) := by
  rw [call_salsa20_salsa20]
  evaluate [Gen.fn_salsa20_salsa20, salsa20, forLoop_map]
  erw [forLoop_model (fun x : Vector U32 16 => [(.x, words x.toList), (.input, bytes input), (.rounds, .usize rounds),
    (.output, bytes output)]) (forRange 0 16 (Vector.replicate 16 (0 : U32)) _) rfl]
  · evaluate [forLoop_map]
    refine R.bind_congr fun x => ?_
    erw [forLoop_model (fun z : Vector U32 16 => [(.z, words z.toList), (.x, words x.toList), (.input, bytes input),
      (.rounds, .usize rounds), (.output, bytes output)])
      (forRange 0 rounds x fun _ z => return doubleround z) rfl]
    · evaluate []
      refine R.bind_congr fun z => ?_
      rw [zip_enum, forLoop_map]
      erw [forLoop_model (fun o : List U8 => [(.z, words z.toList), (.x, words x.toList), (.input, bytes input),
        (.rounds, .usize rounds), (.output, bytes o)]) (forRange 0 16 output fun i output => do
          let x_elem ← vidx x i
          let z_elem ← vidx z i
          let piece ← littleendian_inv (wrapping_sum x_elem [z_elem]) (← slice output (i * 4) (i * 4 + 4))
          copyFromSlice output (i * 4) (i * 4 + 4) piece) rfl]
      · evaluate []
      · intro i hi o k
        simp [src] at hi
        by_cases ho : i * 4 + 4 ≤ o.length
        · have hl : (List.drop (i * 4) (List.take (i * 4 + 4) o)).length = 4 := by simp; omega
          evaluate [Small.add, Small.mul, vidx_ok, slice, copyFromSlice, ho, littleendian_inv_ok _ _ hl, wrapping_sum]
          simp
        · evaluate [Small.add, Small.mul, vidx_ok, slice, copyFromSlice, ho]
    · intro i _ z k
      evaluate []
  · intro i hi x k
    simp at hi
    evaluate [Small.add, Small.mul, vidx_ok]

end Verif.Source
