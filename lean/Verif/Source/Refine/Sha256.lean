import Verif.Source.Sig
import Verif.Model.Sha256

/-! The functions of `src/sha256.rs` compute what the model says. -/

set_option linter.constructorNameAsVariable false
set_option backward.isDefEq.respectTransparency false

namespace Verif.Source
open Verif Verif.Sha256

variable (T : Target) (F d : Nat)

set_option maxRecDepth 8192 in
@[src] theorem const_K : constVal T crate .sha256_K = .ok (words K.toList) := rfl
@[src] theorem const_H : constVal T crate .sha256_H = .ok (words H.toList) := rfl
@[src] theorem const_BLOCK_SIZE : constVal T crate .sha256_BLOCK_SIZE = .ok (.usize 64) := rfl
@[src] theorem const_DIGEST_SIZE : constVal T crate .sha256_DIGEST_SIZE = .ok (.usize 32) := rfl

@[src] theorem src_ch (x y z : U32) :
    call T crate F (d + 1) .sha256_ch [.u32 x, .u32 y, .u32 z] = .ok (.u32 (ch x y z), []) := by
  rw [call_sha256_ch]; evaluate [Gen.fn_sha256_ch]; rfl

@[src] theorem src_maj (x y z : U32) :
    call T crate F (d + 1) .sha256_maj [.u32 x, .u32 y, .u32 z] = .ok (.u32 (maj x y z), []) := by
  rw [call_sha256_maj]; evaluate [Gen.fn_sha256_maj]; rfl

theorem src_rotr (x : U32) (s : Nat) (h : 0 < s) (h' : s < 32) :
    call T crate F (d + 1) .sha256_rotr [.u32 x, .u32 (BitVec.ofNat 32 s)] = .ok (.u32 (rotr x s), []) := by
  have h1 : (BitVec.ofNat 32 s).toNat = s := by simp; omega
  have e : (32#32 - BitVec.ofNat 32 s).toNat = 32 - s := by
    rw [BitVec.toNat_sub_of_le]; · rw [h1]; rfl
    · simp [BitVec.le_def]; omega
  rw [call_sha256_rotr]
  evaluate [Gen.fn_sha256_rotr, bvSub, Small.shl, Small.shr, checked, e, h1, rotr, show s ≤ 32 by omega,
    show s % 4294967296 = s by omega]

@[src] theorem src_bsig0 (x : U32) :
    call T crate F (d + 2) .sha256_bsig0 [.u32 x] = .ok (.u32 (bsig0 x), []) := by
  rw [call_sha256_bsig0]; evaluate [Gen.fn_sha256_bsig0, src_rotr, bsig0]

@[src] theorem src_bsig1 (x : U32) :
    call T crate F (d + 2) .sha256_bsig1 [.u32 x] = .ok (.u32 (bsig1 x), []) := by
  rw [call_sha256_bsig1]; evaluate [Gen.fn_sha256_bsig1, src_rotr, bsig1]

@[src] theorem src_ssig0 (x : U32) :
    call T crate F (d + 2) .sha256_ssig0 [.u32 x] = .ok (.u32 (ssig0 x), []) := by
  rw [call_sha256_ssig0]; evaluate [Gen.fn_sha256_ssig0, src_rotr, ssig0, bvShr]

@[src] theorem src_ssig1 (x : U32) :
    call T crate F (d + 2) .sha256_ssig1 [.u32 x] = .ok (.u32 (ssig1 x), []) := by
  rw [call_sha256_ssig1]; evaluate [Gen.fn_sha256_ssig1, src_rotr, ssig1, bvShr]

@[src] theorem src_fill_block (input : Vector U8 64) (output : Vector U32 16) :
    call T crate F (d + 1) .sha256_fill_block [bytes input.toList, words output.toList] =
      up (fill_block input output) >>= fun o => .ok (.unit, [words o.toList]) := by
  rw [call_sha256_fill_block]
  evaluate [Gen.fn_sha256_fill_block, forLoop_map]
  rw [forLoop_model (fun o : Vector U32 16 => [(.input, bytes input.toList), (.output, words o.toList)])
    (fill_block input output) rfl]
  · evaluate []
  · intro i hi o k
    simp [src] at hi
    evaluate [Small.mul, Small.add, Small.shl]

/-- The value of a `SHA256`. -/
def encSha (s : SHA256) : Val :=
  .struct .SHA256 [(.h, words s.h.toList), (.buffer, bytes s.buffer.toList), (.length, .usize s.length)]

attribute [src] encSha

@[src] theorem src_write_u64_be (xs : List U8) (h : xs.length = 8) (v : U64) :
    call T crate F (d + 1) .sha256_write_u64_be [bytes xs, .u64 v] =
      .ok (.unit, [bytes [(v >>> 56).setWidth 8, (v >>> 48).setWidth 8, (v >>> 40).setWidth 8, (v >>> 32).setWidth 8,
        (v >>> 24).setWidth 8, (v >>> 16).setWidth 8, (v >>> 8).setWidth 8, v.setWidth 8]]) := by
  match xs, h with
  | [x0, x1, x2, x3, x4, x5, x6, x7], _ =>
    rw [call_sha256_write_u64_be]
    evaluate [Gen.fn_sha256_write_u64_be, Small.shr, upd]

@[src] theorem src_new : call T crate F (d + 1) .sha256_SHA256_new [] = .ok (encSha .new, []) := by
  rw [call_sha256_SHA256_new]; evaluate [Gen.fn_sha256_SHA256_new, SHA256.new, BLOCK_SIZE]

@[src] theorem src_default : call T crate F (d + 2) .sha256_SHA256_default [] = .ok (encSha .default, []) := by
  rw [call_sha256_SHA256_default]; evaluate [Gen.fn_sha256_SHA256_default, SHA256.default]

theorem set8 {α : Type} (v : Vector α 8) (a b c d e f g h : α) :
    ((((((((v.set 0 a).set 1 b).set 2 c).set 3 d).set 4 e).set 5 f).set 6 g).set 7 h).toList = [a, b, c, d, e, f, g, h] := by
  apply List.ext_getElem
  · simp
  · intro i h1 h2
    simp at h2
    rw [Vector.getElem_toList]
    match i, h2 with
    | 0, _ | 1, _ | 2, _ | 3, _ | 4, _ | 5, _ | 6, _ | 7, _ => simp

theorem src_process_block (self : SHA256) (block : Vector U32 16) :
    call T crate F (d + 3) .sha256_SHA256_process_block [encSha self, words block.toList] =
      up (self.process_block block) >>= fun s => .ok (.unit, [encSha s]) := by
  have hw : List.take 16 block.toList ++ List.drop 16 (Vector.replicate 64 0#32).toList =
      (block ++ Vector.replicate 48 (0 : U32) : Vector U32 (16 + 48)).toList := by
    rw [List.take_of_length_le (by simp), Vector.toList_append]; simp [-List.reduceReplicate]
  rw [call_sha256_SHA256_process_block]
  evaluate [Gen.fn_sha256_SHA256_process_block, forLoop_map, slice_vector, hw]
  erw [forLoop_model (fun w : Vector U32 64 => [(.h, .unit), (.g, .unit), (.f, .unit), (.e, .unit), (.d, .unit),
    (.c, .unit), (.b, .unit), (.a, .unit), (.w, words w.toList), (.self, encSha self), (.block, words block.toList)])
    (SHA256.schedule block) rfl]
  · evaluate [vidx, forLoop_map, SHA256.process_block]
    refine R.bind_congr fun w => ?_
    erw [forLoop_model (fun r : Regs => [(.h, .u32 r.h), (.g, .u32 r.g), (.f, .u32 r.f), (.e, .u32 r.e), (.d, .u32 r.d),
      (.c, .u32 r.c), (.b, .u32 r.b), (.a, .u32 r.a), (.w, words w.toList), (.self, encSha self),
      (.block, words block.toList)])
      (SHA256.rounds w ⟨self.h[0], self.h[1], self.h[2], self.h[3], self.h[4], self.h[5], self.h[6], self.h[7]⟩) rfl]
    · evaluate [vidx, vupd, set8, wrapping_sum]
    · intro t ht r k
      simp [src] at ht
      evaluate [wrapping_sum]
  · intro t ht w k
    simp [src] at ht
    evaluate [Small.sub, wrapping_sum]

/-- `encSha` of the fields. -/
abbrev encSha' (h : Vector U32 8) (buffer : Vector U8 64) (length : Nat) : Val :=
  .struct .SHA256 [(.h, words h.toList), (.buffer, bytes buffer.toList), (.length, .usize length)]

@[src] theorem src_process_block' (h : Vector U32 8) (buffer : Vector U8 64) (length : Nat) (block : Vector U32 16) :
    call T crate F (d + 3) .sha256_SHA256_process_block [encSha' h buffer length, words block.toList] =
      up (SHA256.process_block ⟨h, buffer, length⟩ block) >>= fun s => .ok (.unit, [encSha s]) :=
  src_process_block T F d ⟨h, buffer, length⟩ block

theorem src_update (self : SHA256) (data : List U8) :
    call T crate F (d + 4) .sha256_SHA256_update [encSha self, bytes data] =
      up (self.update T data) >>= fun s => .ok (.unit, [encSha s]) := by
  rw [call_sha256_SHA256_update]
  evaluate [Gen.fn_sha256_SHA256_update, forLoop_map, usizeDiv, SHA256.update]
  erw [forLoop_model (fun st : SHA256 × Vector U32 16 => [(.block, words st.2.toList), (.self, encSha st.1),
    (.data, bytes data)]) (s := (self, Vector.replicate 16 0#32)) (forEach data _ (SHA256.updateByte T)) rfl]
  · evaluate []
  · intro b _ st k
    evaluate [Target.rem, BLOCK_SIZE, SHA256.updateByte]

@[src] theorem src_update' (h : Vector U32 8) (buffer : Vector U8 64) (length : Nat) (data : List U8) :
    call T crate F (d + 4) .sha256_SHA256_update [encSha' h buffer length, bytes data] =
      up (SHA256.update T ⟨h, buffer, length⟩ data) >>= fun s => .ok (.unit, [encSha s]) :=
  src_update T F d ⟨h, buffer, length⟩ data

/-- What `write_u64_be` leaves at the end of the buffer. -/
def withLength (b : Vector U8 64) (v : U64) : Vector U8 64 :=
  ((((((((b.set 56 ((v >>> 56).setWidth 8)).set 57 ((v >>> 48).setWidth 8)).set 58 ((v >>> 40).setWidth 8)).set 59
    ((v >>> 32).setWidth 8)).set 60 ((v >>> 24).setWidth 8)).set 61 ((v >>> 16).setWidth 8)).set 62
    ((v >>> 8).setWidth 8)).set 63 (v.setWidth 8))

theorem withLength_model (b : Vector U8 64) (v : U64) : write_u64_be b 56 v = .ok (withLength b v) := by
  simp [write_u64_be, vupd, withLength, Bind.bind, Except.bind]

theorem withLength_toList (b : Vector U8 64) (v : U64) :
    b.toList.take 56 ++ [(v >>> 56).setWidth 8, (v >>> 48).setWidth 8, (v >>> 40).setWidth 8, (v >>> 32).setWidth 8,
        (v >>> 24).setWidth 8, (v >>> 16).setWidth 8, (v >>> 8).setWidth 8, v.setWidth 8] = (withLength b v).toList := by
  apply List.ext_getElem
  · simp
  · intro i h1 h2
    simp at h2
    rw [Vector.getElem_toList, List.getElem_append]
    split <;> rename_i hi
    · simp at hi
      simp [withLength, show 56 ≠ i by omega, show 57 ≠ i by omega, show 58 ≠ i by omega,
        show 59 ≠ i by omega, show 60 ≠ i by omega, show 61 ≠ i by omega, show 62 ≠ i by omega, show 63 ≠ i by omega]
    · simp at hi
      obtain ⟨k, rfl⟩ : ∃ k, i = 56 + k := ⟨i - 56, by omega⟩
      match k, h2 with
      | 0, _ | 1, _ | 2, _ | 3, _ | 4, _ | 5, _ | 6, _ | 7, _ => simp [withLength]
      | k + 8, h => omega

theorem src_write_end (b : Vector U8 64) (v : U64) :
    call T crate F (d + 1) .sha256_write_u64_be [bytes (b.toList.drop 56), .u64 v] =
      .ok (.unit, [bytes [(v >>> 56).setWidth 8, (v >>> 48).setWidth 8, (v >>> 40).setWidth 8, (v >>> 32).setWidth 8,
        (v >>> 24).setWidth 8, (v >>> 16).setWidth 8, (v >>> 8).setWidth 8, v.setWidth 8]]) :=
  src_write_u64_be T F d _ (by simp) v

theorem withLength_val (b : Vector U8 64) (n : Nat) :
    (b.toList.take 56).map Val.u8 ++ .u8 ((BitVec.ofNat 64 n >>> 56).setWidth 8) ::
      .u8 ((BitVec.ofNat 64 n >>> 48).setWidth 8) :: .u8 ((BitVec.ofNat 64 n >>> 40).setWidth 8) ::
      .u8 ((BitVec.ofNat 64 n >>> 32).setWidth 8) :: .u8 ((BitVec.ofNat 64 n >>> 24).setWidth 8) ::
      .u8 ((BitVec.ofNat 64 n >>> 16).setWidth 8) :: .u8 ((BitVec.ofNat 64 n >>> 8).setWidth 8) ::
      .u8 (BitVec.ofNat 8 n) :: (b.toList.drop 64).map .u8 = (withLength b (BitVec.ofNat 64 n)).toList.map .u8 := by
  rw [← withLength_toList]; simp

theorem src_digest (self : SHA256) :
    call T crate F (d + 4) .sha256_SHA256_digest [encSha self] =
      up (self.digest T) >>= fun r => .ok (bytes r.2.toList, [encSha r.1]) := by
  rw [call_sha256_SHA256_digest]
  evaluate [Gen.fn_sha256_SHA256_digest, forLoop_map, usizeDiv, Target.rem, SHA256.digest, BLOCK_SIZE]
  generalize Vector.replicate 16 0#32 = z
  erw [forLoop_model (fun b : Vector U8 64 => [(.off, .usize (self.length % 64)),
    (.block, words z.toList), (.self, encSha { self with buffer := b })])
    (forRange (self.length % 64) 64 self.buffer fun i b => vupd b i 0) rfl]
  · evaluate []
    refine R.bind_congr fun b => ?_
    have hl : self.length % 64 < 64 := Nat.mod_lt _ (by decide)
    by_cases hov : 64 < self.length % 64 + 9
    · evaluate [Small.add, Small.sub, hov]
      refine R.bind_congr fun x => ?_
      refine R.bind_congr fun b => ?_
      refine R.bind_congr fun z => ?_
      refine R.bind_congr fun self' => ?_
      generalize Vector.replicate 64 0#8 = b'
      evaluate [Small.add, Small.sub, hov, withLength_model, slice_vector_end, src_write_end, withLength_val,
        forLoop_map, show ¬ self.length % 64 ≤ 55 by omega]
      refine R.bind_congr fun n => ?_
      refine R.bind_congr fun z => ?_
      refine R.bind_congr fun self' => ?_
      erw [forLoop_model (fun o : Vector U8 32 => [(.out, bytes o.toList), (.len_off, .usize 56),
        (.has_overflow, .bool true), (.off, .usize 0), (.block, words z.toList), (.self, encSha self')])
        (SHA256.output self'.h) rfl]
      · evaluate []
      · intro i hi o k
        simp [src] at hi
        evaluate [Small.add, Small.mul, Small.shr, vidx_ok]
    · evaluate [Small.add, Small.sub, hov, withLength_model, slice_vector_end, src_write_end, withLength_val,
        forLoop_map, show self.length % 64 ≤ 55 by omega]
      refine R.bind_congr fun n => ?_
      refine R.bind_congr fun x => ?_
      refine R.bind_congr fun b => ?_
      refine R.bind_congr fun z => ?_
      refine R.bind_congr fun self' => ?_
      erw [forLoop_model (fun o : Vector U8 32 => [(.out, bytes o.toList), (.len_off, .usize 56),
        (.has_overflow, .bool false), (.off, .usize (self.length % 64)), (.block, words z.toList), (.self, encSha self')])
        (SHA256.output self'.h) rfl]
      · evaluate []
      · intro i hi o k
        simp [src] at hi
        evaluate [Small.add, Small.mul, Small.shr, vidx_ok]
  · intro i _ b k
    evaluate []

@[src] theorem src_digest' (h : Vector U32 8) (buffer : Vector U8 64) (length : Nat) :
    call T crate F (d + 4) .sha256_SHA256_digest [encSha' h buffer length] =
      up (SHA256.digest T ⟨h, buffer, length⟩) >>= fun r => .ok (bytes r.2.toList, [encSha r.1]) :=
  src_digest T F d ⟨h, buffer, length⟩

end Verif.Source
