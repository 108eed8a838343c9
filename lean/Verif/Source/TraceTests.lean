import Verif.Source.TraceAes

/-! What is seen of AES: the outcomes of the tests in the multiplications of `AES::encrypt`. -/

set_option linter.constructorNameAsVariable false
set_option backward.isDefEq.respectTransparency false
namespace Verif.Source
open Verif Verif.Aes
variable (T : Target) (F d : Nat)

/-- The outcomes of the tests. -/
def tests : Trace → List Bool
  | [] => []
  | .branch b :: t => b :: tests t
  | _ :: t => tests t

theorem tests_append (s t : Trace) : tests (s ++ t) = tests s ++ tests t := by
  induction s with
  | nil => rfl
  | cons e s ih => cases e <;> simp [tests, ih]

theorem whileTr_step (seenC : Env → Trace) (c : E Val) (seen : Env → Trace) (body : E Val) (n : Nat) (env : Env) :
    whileTr seenC c seen body (n + 1) env = seenC env ++ after (c env) fun v env =>
      branchTr v (seen env ++ after (nextIter (inScope body env) fun env => .ok (.val .unit, env)) fun _ =>
        whileTr seenC c seen body n) [] := rfl

/-- Whether the highest bit is clear: the test of src/aes.rs:75. -/
def low (b : U8) : Bool := b &&& 128#8 = 0#8

/-- src/aes.rs:83-94 for `by = 2`. -/
theorem tests_mul2 (b : U8) :
    tests (callT T crate (F + 65) (d + 2) .aes_mul [.u8 b, .usize 2]).1 = [true, false, low b, true, true, low (double b), false] := by
  show tests (evalT (ctxT T (F + 65) (d+1)) Gen.fn_aes_mul.body [(.b, .u8 b), (.«by», .usize 2)]).1 = _
  obtain ⟨p, hp⟩ := mul_loop T (F + 65) d F 64 2 (by omega) b b 0
  evaluate [Gen.fn_aes_mul, ctxT_erase]
  erw [hp]
  rw [show (ctxT T (F + 65) (d + 1)).fuel = F + 62 + 1 + 1 + 1 from rfl, whileTr_step]
  evaluate [ctxT_erase, trace_double, Small.ushr, tests]
  rw [whileTr_step]
  evaluate [ctxT_erase, trace_double, Small.ushr, tests]
  rw [whileTr_step]
  evaluate [ctxT_erase, trace_double, Small.ushr, tests, low]

/-- src/aes.rs:83-94 for `by = 3`. -/
theorem tests_mul3 (b : U8) :
    tests (callT T crate (F + 65) (d + 2) .aes_mul [.u8 b, .usize 3]).1 = [true, true, low b, true, true, low (double b), false] := by
  show tests (evalT (ctxT T (F + 65) (d+1)) Gen.fn_aes_mul.body [(.b, .u8 b), (.«by», .usize 3)]).1 = _
  obtain ⟨p, hp⟩ := mul_loop T (F + 65) d F 64 3 (by omega) b b 0
  evaluate [Gen.fn_aes_mul, ctxT_erase]
  erw [hp]
  rw [show (ctxT T (F + 65) (d + 1)).fuel = F + 62 + 1 + 1 + 1 from rfl, whileTr_step]
  evaluate [ctxT_erase, trace_double, Small.ushr, tests]
  rw [whileTr_step]
  evaluate [ctxT_erase, trace_double, Small.ushr, tests]
  rw [whileTr_step]
  evaluate [ctxT_erase, trace_double, Small.ushr, tests, low]

/-- The tests of the multiplications of a column: of the doublings, the highest bits of the bytes and of their doubles
(src/aes.rs:201-208). -/
def columnTests (c : Vector U8 4) : List Bool :=
  let two b := [true, false, low b, true, true, low (double b), false]
  let three b := [true, true, low b, true, true, low (double b), false]
  two c[0] ++ three c[1] ++ two c[1] ++ three c[2] ++ two c[2] ++ three c[3] ++ two c[3] ++ three c[0]

theorem tests_mix_column (c : Vector U8 4) :
    tests (callT T crate (F + 65) (d + 3) .aes_AESEncrypt_mix_column [bytes c.toList]).1 = columnTests c := by
  show tests (evalT (ctxT T (F + 65) (d+2)) Gen.fn_aes_AESEncrypt_mix_column.body [(.col, bytes c.toList)]).1 = _
  evaluate [Gen.fn_aes_AESEncrypt_mix_column, ctxT_erase, tests, tests_append, tests_mul2, tests_mul3, vidx, columnTests]

theorem tests_flatMap {α : Type} (xs : List α) (f : α → Trace) : tests (xs.flatMap f) = xs.flatMap fun x => tests (f x) := by
  induction xs with
  | nil => rfl
  | cons x xs ih => rw [List.flatMap_cons, tests_append, ih, List.flatMap_cons]

theorem tests_mix_columns (s : Block) :
    tests (callT T crate (F + 65) (d + 4) .aes_AESEncrypt_mix_columns [encBlock s]).1 = s.toList.flatMap columnTests := by
  show tests (evalT (ctxT T (F + 65) (d+3)) Gen.fn_aes_AESEncrypt_mix_columns.body [(.s, encBlock s)]).1 = _
  evaluate [Gen.fn_aes_AESEncrypt_mix_columns, ctxT_erase, encBlock, encCols]
  erw [loopTr_iterMap (fun s => [(.s, encCols s)]) encMixColumn
    (fun c => .call .aes_AESEncrypt_mix_column :: (callT T crate (F + 65) (d + 3) .aes_AESEncrypt_mix_column [bytes c.toList]).1)
    (xs := s.toList) (by simp)]
  · evaluate [tests, tests_flatMap, tests_mix_column]
  · intro i hi s k
    evaluate [encCols]
  · intro i s c hc
    evaluate [encCols, hc, ctxT_erase]
end Verif.Source
