import Verif.Source.Sig
import Verif.Model.Pkcs7

/-! The functions of `src/pkcs7.rs` compute what the model says. -/

set_option linter.constructorNameAsVariable false
set_option backward.isDefEq.respectTransparency false

namespace Verif.Source
open Verif Verif.Pkcs7

variable (T : Target) (F d : Nat)

/-- A `Pad` as a value of the source. -/
def encPad (p : Pad) : Val := .struct .Pad [(.block_size, .usize p.block_size), (.storage, bytes p.storage)]
/-- An `Unpad` as a value of the source. -/
def encUnpad (p : Unpad) : Val := .struct .Unpad [(.block_size, .usize p.block_size), (.storage, bytes p.storage)]
/-- An `Option<Vec<u8>>` as a value of the source. -/
def encOptBytes : Option (List U8) → Val
  | none => .enum .None []
  | some xs => .enum .Some [bytes xs]
/-- An `UnpadError` as a value of the source. -/
def encUnpadError : UnpadError → Val
  | .UnfinishedBlock => .enum .UnpadError_UnfinishedBlock []
  | .InvalidPadding => .enum .UnpadError_InvalidPadding []
/-- A `Result<Vec<u8>, E>` as a value of the source. -/
def encRes {ε α : Type} (err : ε → Val) (ok : α → Val) : Except ε α → Val
  | .ok a => .enum .Ok [ok a]
  | .error e => .enum .Err [err e]

theorem src_Pad_new (n : Nat) (h : 2 * n < 2 ^ 31) :
    call T crate F (d + 1) .pkcs7_Pad_new [.usize n] = .ok (encPad (Pad.new n), []) := by
  have hr : T.reserve 1 (2 * n) = .ok () := by
    apply T.reserve_ok
    rcases T.bits_cases with hb | hb <;> simp only [Target.isizeMax, hb] <;> omega
  rw [call_pkcs7_Pad_new]
  evaluate [Gen.fn_pkcs7_Pad_new, Pad.new, encPad, Small.mul, hr]

theorem src_Unpad_new (n : Nat) (h : 2 * n < 2 ^ 31) :
    call T crate F (d + 1) .pkcs7_Unpad_new [.usize n] = .ok (encUnpad (Unpad.new n), []) := by
  have hr : T.reserve 1 (2 * n) = .ok () := by
    apply T.reserve_ok
    rcases T.bits_cases with hb | hb <;> simp only [Target.isizeMax, hb] <;> omega
  rw [call_pkcs7_Unpad_new]
  evaluate [Gen.fn_pkcs7_Unpad_new, Unpad.new, encUnpad, Small.mul, hr]

theorem src_UnpadError_description (e : UnpadError) :
    call T crate F (d + 1) .pkcs7_UnpadError_description [encUnpadError e] = .ok (.str e.description, []) := by
  rw [call_pkcs7_UnpadError_description]
  cases e <;> evaluate [Gen.fn_pkcs7_UnpadError_description, encUnpadError, UnpadError.description]

/-- src/pkcs7.rs:65-69 `<UnpadError as Display>::fmt`: the formatter ends up with the displayed text appended. -/
theorem src_UnpadError_fmt (e : UnpadError) (s : String) :
    call T crate F (d + 2) .pkcs7_UnpadError_fmt [encUnpadError e, .str s] =
      .ok (.enum .Ok [.unit], [.str (s ++ e.display)]) := by
  rw [call_pkcs7_UnpadError_fmt]
  evaluate [Gen.fn_pkcs7_UnpadError_fmt, src_UnpadError_description, UnpadError.display]

theorem src_Pad_write (self : Pad) (buf : List U8) :
    call T crate F (d + 1) .pkcs7_Pad_write [encPad self, bytes buf] =
      up (self.write T buf) >>= fun r => .ok (encOptBytes r.2, [encPad r.1]) := by
  rw [call_pkcs7_Pad_write]
  evaluate [Gen.fn_pkcs7_Pad_write, forLoop_map, encPad]
  erw [forLoop_model (fun s : List U8 => [(.self, encPad ⟨self.block_size, s⟩), (.buf, bytes buf)])
    (forEach buf self.storage fun x s => .ok (s ++ [x])) rfl]
  · rw [forEach_push]
    simp only [Pad.write]
    generalize self.storage ++ buf = s
    by_cases h : s.length < self.block_size
    · evaluate [h, encPad, encOptBytes]
    by_cases h0 : self.block_size = 0
    · evaluate [h, h0, Target.rem, encPad, encOptBytes]
    · have := Nat.mod_le s.length self.block_size
      evaluate [h, h0, Target.rem, Small.sub, encPad, encOptBytes]
  · intro b _ s k
    evaluate [encPad]

theorem src_Unpad_write (self : Unpad) (buf : List U8) :
    call T crate F (d + 1) .pkcs7_Unpad_write [encUnpad self, bytes buf] =
      up (self.write T buf) >>= fun r => .ok (encOptBytes r.2, [encUnpad r.1]) := by
  rw [call_pkcs7_Unpad_write]
  evaluate [Gen.fn_pkcs7_Unpad_write, forLoop_map, encUnpad]
  erw [forLoop_model (fun s : List U8 => [(.self, encUnpad ⟨self.block_size, s⟩), (.buf, bytes buf)])
    (forEach buf self.storage fun x s => .ok (s ++ [x])) rfl]
  · rw [forEach_push]
    simp only [Unpad.write]
    generalize self.storage ++ buf = s
    by_cases h : s.length ≤ self.block_size
    · evaluate [h, encUnpad, encOptBytes]
    by_cases h0 : self.block_size = 0
    · evaluate [h, h0, Target.rem, encUnpad, encOptBytes, show s ≠ [] by rintro rfl; exact h (Nat.zero_le _)]
    have hm := Nat.mod_le s.length self.block_size
    by_cases h1 : s.length % self.block_size = 0
    · evaluate [h, h0, h1, Target.rem, Small.sub, encUnpad, encOptBytes]
    · evaluate [h, h0, h1, Target.rem, Small.sub, encUnpad, encOptBytes]
  · intro b _ s k
    evaluate [encUnpad]

theorem forEach_const {α σ : Type} (xs : List α) (s : σ) : forEach xs s (fun _ s => (.ok s : M σ)) = .ok s := by
  induction xs with
  | nil => rfl
  | cons x xs ih => exact ih

theorem src_Pad_flush (self : Pad) (hF : self.block_size < F) :
    call T crate F (d + 1) .pkcs7_Pad_flush [encPad self] =
      up (self.flush T) >>= fun r => .ok (bytes r.2, [encPad r.1]) := by
  rw [call_pkcs7_Pad_flush]
  evaluate [Gen.fn_pkcs7_Pad_flush, encPad, Pad.flush]
  refine R.bind_congr fun len => ?_
  have h := whileLoop_model (s := ()) self.storage.length (self.block_size - self.storage.length)
    (c := eval (ctx T F d) (.bin .lt (.prim .len [.field (.var .self) .storage]) (.field (.var .self) .block_size)))
    (body := eval (ctx T F d) (.block [.mutPrim .push (.field (.var .self) .storage) [.cast (.var .len) .u8]] .unit))
    (F := F)
    (fun i _ => [(.len, .usize len), (.self, encPad ⟨self.block_size,
      self.storage ++ List.replicate (i - self.storage.length) (BitVec.ofNat 8 len)⟩)])
    (fun _ s => .ok s) (by omega) ?_ ?_
  · simp only [Nat.sub_self, List.replicate_zero, List.append_nil, Nat.add_sub_cancel_left, forEach_const, encPad] at h
    erw [h]
    evaluate [Pad.flush, encPad]
  · intro i h1 h2 s
    evaluate [encPad]
    omega
  · intro i h1 h2 s k
    evaluate [encPad]
    rw [Nat.succ_sub h1, List.replicate_succ']

theorem forEach_or (x : U8) (xs : List U8) (s : U8) :
    forEach xs s (fun b s => (.ok (s ||| x ^^^ b) : M U8)) = .ok (xs.foldl (fun s b => s ||| x ^^^ b) s) := by
  induction xs generalizing s with
  | nil => rfl
  | cons y xs ih => exact ih _

theorem src_Unpad_flush (self : Unpad) :
    call T crate F (d + 1) .pkcs7_Unpad_flush [encUnpad self] =
      up (self.flush T) >>= fun r => .ok (encRes encUnpadError bytes r.2, [encUnpad r.1]) := by
  rw [call_pkcs7_Unpad_flush]
  by_cases h : self.storage.length ≠ self.block_size
  · evaluate [Gen.fn_pkcs7_Unpad_flush, Unpad.flush, h, encUnpad, encRes, encUnpadError]
  evaluate [Gen.fn_pkcs7_Unpad_flush, Unpad.flush, h, encUnpad, encRes, encUnpadError, forLoop_map]
  refine R.bind_congr fun n => ?_
  refine R.bind_congr fun len => ?_
  split
  · rfl
  refine R.bind_congr fun off => ?_
  refine R.bind_congr fun xs => ?_
  erw [forLoop_model (fun s : U8 => [(.is_same, .u8 s), (.pad_off, .usize off), (.len, .u8 len), (.self, encUnpad self)])
    (forEach xs 0 fun b s => .ok (s ||| len ^^^ b)) rfl]
  · rw [forEach_or]
    generalize List.foldl (fun s b => s ||| len ^^^ b) 0 xs = r
    by_cases hr : r = 0#8
    · evaluate [hr, encUnpad]
    · evaluate [hr, encUnpad]
  · intro b _ s k
    evaluate [encUnpad]

end Verif.Source
