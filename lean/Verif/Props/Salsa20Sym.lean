import Verif.Props.Salsa20

/-! Property C50: symmetries of the Salsa20 core. -/

namespace Verif.Props.Salsa20
open Verif
open Verif.Salsa20 (salsa20 core_length)
open Spec.Salsa20 (quarterround rowround columnround doubleround doubleroundN words core transpose)

/-- The 4 by 4 matrix of words moved by one step along its diagonals: the word in row `i` and column `j` goes to row `i + 1` and
column `j + 1` (modulo 4). -/
def diag (x : Spec.Salsa20.State) : Spec.Salsa20.State :=
  #v[x[15], x[12], x[13], x[14], x[3], x[0], x[1], x[2], x[7], x[4], x[5], x[6], x[11], x[8], x[9], x[10]]

theorem diag_get (x : Spec.Salsa20.State) (i j : Nat) (hi : i < 4) (hj : j < 4) :
    (diag x)[4 * ((i + 1) % 4) + (j + 1) % 4]'(by omega) = x[4 * i + j] := by
  rcases i with _ | _ | _ | _ | i <;> rcases j with _ | _ | _ | _ | j <;> first | rfl | omega

theorem rowround_diag (x : Spec.Salsa20.State) : rowround (diag x) = diag (rowround x) := rfl

theorem transpose_diag (x : Spec.Salsa20.State) : transpose (diag x) = diag (transpose x) := rfl

theorem doubleroundN_diag (n : Nat) (x : Spec.Salsa20.State) : doubleroundN n (diag x) = diag (doubleroundN n x) := by
  induction n with
  | zero => rfl
  | succ n ih =>
    rw [doubleroundN, doubleroundN, ih, doubleround, doubleround, columnround, columnround, transpose_diag, rowround_diag,
      transpose_diag, rowround_diag]

/-- The same move on a 64-byte string, four bytes to a word. -/
def diagBytes (x : List U8) : List U8 :=
  (List.range 16).flatMap fun k => (x.drop (16 * ((k / 4 + 3) % 4) + 4 * ((k % 4 + 3) % 4))).take 4

theorem list64 (x : List U8) (hx : x.length = 64) : x = (List.range 64).map (Spec.byteAt x) := by
  apply List.ext_getElem (by simp [hx])
  intro k h1 h2
  simp [Spec.byteAt, List.getD_eq_getElem?_getD, h1]

theorem byteAt_diagBytes (x : List U8) (hx : x.length = 64) (k j : Nat) (hk : k < 16) (hj : j < 4) :
    Spec.byteAt (diagBytes x) (4 * k + j) = Spec.byteAt x (16 * ((k / 4 + 3) % 4) + 4 * ((k % 4 + 3) % 4) + j) := by
  have hl : ∀ n, n ≤ 16 → ((List.range n).flatMap fun k =>
      (x.drop (16 * ((k / 4 + 3) % 4) + 4 * ((k % 4 + 3) % 4))).take 4).length = 4 * n := by
    intro n hn
    induction n with
    | zero => rfl
    | succ n ih =>
      rw [List.range_succ, List.flatMap_append, List.length_append, ih (by omega), List.flatMap_singleton,
        List.length_take, List.length_drop]
      omega
  have hs : ∀ n, k < n → n ≤ 16 → Spec.byteAt ((List.range n).flatMap fun k =>
      (x.drop (16 * ((k / 4 + 3) % 4) + 4 * ((k % 4 + 3) % 4))).take 4) (4 * k + j) =
        Spec.byteAt x (16 * ((k / 4 + 3) % 4) + 4 * ((k % 4 + 3) % 4) + j) := by
    intro n h1 h2
    induction n with
    | zero => omega
    | succ n ih =>
      rw [List.range_succ, List.flatMap_append, List.flatMap_singleton]
      by_cases hkn : k < n
      · rw [Sha256.byteAt_append_left _ _ _ (by rw [hl n (by omega)]; omega), ih hkn (by omega)]
      · have : k = n := by omega
        subst this
        rw [show 4 * k + j = ((List.range k).flatMap fun k =>
          (x.drop (16 * ((k / 4 + 3) % 4) + 4 * ((k % 4 + 3) % 4))).take 4).length + j by rw [hl k (by omega)],
          Sha256.byteAt_append_right]
        simp [Spec.byteAt, List.getD_eq_getElem?_getD, hj]
  exact hs 16 hk (by decide)

theorem diagBytes_length (x : List U8) (hx : x.length = 64) : (diagBytes x).length = 64 := by
  simp [diagBytes, List.range, List.range.loop, hx]

theorem diag_get' (x : Spec.Salsa20.State) (k : Nat) (hk : k < 16) :
    (diag x)[k] = x[4 * ((k / 4 + 3) % 4) + (k % 4 + 3) % 4]'(by omega) := by
  rcases k with _ | _ | _ | _ | _ | _ | _ | _ | _ | _ | _ | _ | _ | _ | _ | _ | i <;> first | rfl | omega

theorem words_diagBytes (x : List U8) (hx : x.length = 64) : words (diagBytes x) = diag (words x) := by
  apply Vector.ext
  intro k hk
  rw [diag_get' _ _ hk]
  simp only [words, Vector.getElem_ofFn]
  have e := fun j hj => byteAt_diagBytes x hx k j hk hj
  have e0 := e 0 (by decide)
  rw [Nat.add_zero, Nat.add_zero] at e0
  rw [e0, e 1 (by decide), e 2 (by decide), e 3 (by decide)]
  simp only [Nat.mul_add, ← Nat.mul_assoc, Nat.reduceMul]

theorem core_diag (n : Nat) (x : List U8) (hx : x.length = 64) : core n (diagBytes x) = diagBytes (core n x) := by
  apply words_injective _ _ (core_length _ _) (diagBytes_length _ (core_length _ _))
  rw [words_diagBytes _ (core_length _ _), words_core, words_core, words_diagBytes _ hx, doubleroundN_diag]
  apply Vector.ext
  intro i hi
  rw [diag_get' _ _ hi, Vector.getElem_zipWith, Vector.getElem_zipWith, diag_get' _ _ hi, diag_get' _ _ hi]

/-- **C50.** Moving the words of the input along the diagonals of the 4 by 4 matrix moves the words of the output in the same way,
for every input and number of rounds. -/
theorem C50_diagonal_symmetry (x out out' y : List U8) (rounds : Nat) (hx : x.length = 64) (ho : out.length = 64)
    (ho' : out'.length = 64) (h : salsa20 x rounds out = .ok y) :
    salsa20 (diagBytes x) rounds out' = .ok (diagBytes y) := by
  rw [C12_salsa20_correct _ _ _ hx ho, Except.ok.injEq] at h
  rw [C12_salsa20_correct _ _ _ (diagBytes_length x hx) ho', core_diag _ _ hx, h]

/-- **C50.** An input that is constant along the diagonals has an output that is constant along the diagonals. -/
theorem C50_symmetric_inputs (x out y : List U8) (rounds : Nat) (hx : x.length = 64) (ho : out.length = 64)
    (hs : diagBytes x = x) (h : salsa20 x rounds out = .ok y) : diagBytes y = y := by
  have := C50_diagonal_symmetry x out out y rounds hx ho ho h
  rw [hs, h, Except.ok.injEq] at this
  exact this.symm

/-- Such inputs exist for every choice of four words; here four words given by single bytes. -/
example (a b c d : U8) (rounds : Nat) :
    let w := fun b : U8 => [b, 0, 0, 0]
    let x := w a ++ w b ++ w c ++ w d ++ w d ++ w a ++ w b ++ w c ++ w c ++ w d ++ w a ++ w b ++ w b ++ w c ++ w d ++ w a
    ∃ y, salsa20 x rounds (List.replicate 64 0) = .ok y ∧ diagBytes y = y := by
  intro w x
  have hx : x.length = 64 := by simp [x, w]
  have h := C12_salsa20_correct x (List.replicate 64 0) rounds hx List.length_replicate
  exact ⟨_, h, C50_symmetric_inputs x _ _ rounds hx List.length_replicate (by
    simp [diagBytes, List.range, List.range.loop, x, w]) h⟩

theorem words_zero : words (List.replicate 64 0) = Vector.replicate 16 0 := by decide +kernel

theorem doubleround_zero : doubleround (Vector.replicate 16 0) = Vector.replicate 16 0 := by decide +kernel

theorem doubleroundN_zero (n : Nat) : doubleroundN n (Vector.replicate 16 0) = Vector.replicate 16 0 := by
  induction n with
  | zero => rfl
  | succ n ih => rw [doubleroundN, ih, doubleround_zero]

/-- **C50.** The all-zero input gives the all-zero output, for every number of rounds. -/
theorem C50_zero (out : List U8) (rounds : Nat) (ho : out.length = 64) :
    salsa20 (List.replicate 64 0) rounds out = .ok (List.replicate 64 0) := by
  rw [C12_salsa20_correct _ _ _ List.length_replicate ho]
  congr 1
  apply words_injective _ _ (core_length _ _) List.length_replicate
  rw [words_core, words_zero, doubleroundN_zero]
  decide +kernel

/-- Eight rounds, as scrypt has. -/
example := C50_zero (List.replicate 64 255) 8 (by decide)

/-- **C50.** With zero rounds every word of the input is doubled. -/
theorem C50_no_rounds (x out y : List U8) (hx : x.length = 64) (ho : out.length = 64) (h : salsa20 x 0 out = .ok y) :
    ∀ i (hi : i < 16), (words y)[i] = (words x)[i] + (words x)[i] := by
  rw [C12_salsa20_correct _ _ _ hx ho, Except.ok.injEq] at h
  intro i hi
  rw [← h, words_core, Vector.getElem_zipWith, doubleroundN]

/-- The hypotheses of the theorems above are met by every input of 64 bytes; here one whose bytes are not constant along the
diagonals, for which the moved input differs from the input. -/
example (rounds : Nat) : ∃ x out y y', x.length = 64 ∧ out.length = 64 ∧ diagBytes x ≠ x ∧ salsa20 x rounds out = .ok y ∧
    salsa20 (diagBytes x) rounds out = .ok (diagBytes y) ∧ salsa20 x 0 out = .ok y' ∧
    ∀ i (hi : i < 16), (words y')[i] = (words x)[i] + (words x)[i] := by
  have hx : ((List.range 64).map (BitVec.ofNat 8)).length = 64 := rfl
  have ho : (List.replicate 64 (9 : U8)).length = 64 := List.length_replicate
  have h := fun n => C12_salsa20_correct _ _ n hx ho
  exact ⟨_, _, _, _, hx, ho, by decide +kernel, h rounds, C50_diagonal_symmetry _ _ _ _ rounds hx ho ho (h rounds), h 0,
    C50_no_rounds _ _ _ hx ho (h 0)⟩

end Verif.Props.Salsa20
