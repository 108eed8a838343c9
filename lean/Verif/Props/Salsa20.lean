import Verif.Proof.Salsa20

/-! Properties C12-C15: the Salsa20 core. -/

namespace Verif.Props.Salsa20
open Verif
open Verif.Salsa20 (salsa20 salsa20_ok salsa20_short_input salsa20_short_output core_take core_length doubleround_eq)
open Spec.Salsa20 (quarterround rowround columnround doubleround doubleroundN words core transpose)

/-- **C12.** On 64-byte buffers `salsa20` stores the Salsa20 core of the input, for every number of double rounds. -/
theorem C12_salsa20_correct (input output : List U8) (rounds : Nat) (hi : input.length = 64) (ho : output.length = 64) :
    salsa20 input rounds output = .ok (core rounds input) := by
  rw [salsa20_ok input rounds output (by omega) (by omega), List.drop_eq_nil_of_le (by omega), List.append_nil]

example (b : U8) (rounds : Nat) :
    salsa20 (List.replicate 64 b) rounds (List.replicate 64 0) = .ok (core rounds (List.replicate 64 b)) :=
  C12_salsa20_correct _ _ _ List.length_replicate List.length_replicate

/-- The specification's column round, defined as a transposed row round, is the one given by equations in section 5 of the
Salsa20 specification. -/
theorem columnround_equations (x : Spec.Salsa20.State) :
    let y := columnround x
    (y[0], y[4], y[8], y[12]) = quarterround (x[0], x[4], x[8], x[12]) ∧
    (y[5], y[9], y[13], y[1]) = quarterround (x[5], x[9], x[13], x[1]) ∧
    (y[10], y[14], y[2], y[6]) = quarterround (x[10], x[14], x[2], x[6]) ∧
    (y[15], y[3], y[7], y[11]) = quarterround (x[15], x[3], x[7], x[11]) :=
  ⟨rfl, rfl, rfl, rfl⟩

/-- **C13.** `salsa20` panics exactly when one of the buffers is shorter than 64 bytes. -/
theorem C13_panics_iff (input output : List U8) (rounds : Nat) :
    (∃ p, salsa20 input rounds output = .error p) ↔ input.length < 64 ∨ output.length < 64 := by
  constructor
  · rintro ⟨p, hp⟩
    apply Classical.byContradiction
    intro h
    rw [salsa20_ok input rounds output (by omega) (by omega)] at hp
    cases hp
  · intro h
    by_cases hi : input.length < 64
    · exact ⟨_, salsa20_short_input input rounds output hi⟩
    · exact ⟨_, salsa20_short_output input rounds output (by omega) (by omega)⟩

/-- **C13.** Otherwise only the first 64 bytes of the input are read and only the first 64 bytes of the output are
written, with a value that does not depend on the output buffer. -/
theorem C13_first_block_only (input output : List U8) (rounds : Nat) (hi : 64 ≤ input.length) (ho : 64 ≤ output.length) :
    salsa20 input rounds output = .ok (core rounds (input.take 64) ++ output.drop 64) ∧
      (core rounds (input.take 64)).length = 64 :=
  ⟨by rw [salsa20_ok input rounds output hi ho, core_take], core_length _ _⟩

/-- A two-block input: the second block of the output buffer is left alone. -/
example (a b c : U8) (rounds : Nat) :
    salsa20 (List.replicate 64 a ++ List.replicate 64 b) rounds (List.replicate 128 c) =
      .ok (core rounds (List.replicate 64 a) ++ List.replicate 64 c) := by
  rw [(C13_first_block_only _ _ rounds (by rw [List.length_append, List.length_replicate, List.length_replicate]; decide)
    (by rw [List.length_replicate]; decide)).1, List.take_append_of_le_length (by rw [List.length_replicate]; decide),
    List.take_of_length_le (by rw [List.length_replicate]; decide), List.drop_replicate]

/-! ### C14: the rounds are a permutation -/

/-- Inverse of the quarterround. -/
def quarterInv (z : U32 × U32 × U32 × U32) : U32 × U32 × U32 × U32 :=
  let (z0, z1, z2, z3) := z
  let y0 := z0 ^^^ (z3 + z2).rotateLeft 18
  let y3 := z3 ^^^ (z2 + z1).rotateLeft 13
  let y2 := z2 ^^^ (z1 + y0).rotateLeft 9
  let y1 := z1 ^^^ (y0 + y3).rotateLeft 7
  (y0, y1, y2, y3)

theorem xor_cancel {w : Nat} (a b : BitVec w) : a ^^^ b ^^^ b = a := by
  rw [BitVec.xor_assoc, BitVec.xor_self, BitVec.xor_zero]

theorem quarterInv_quarterround (y : U32 × U32 × U32 × U32) : quarterInv (quarterround y) = y := by
  obtain ⟨y0, y1, y2, y3⟩ := y
  simp only [quarterInv, quarterround, xor_cancel]

theorem quarterround_quarterInv (z : U32 × U32 × U32 × U32) : quarterround (quarterInv z) = z := by
  obtain ⟨z0, z1, z2, z3⟩ := z
  simp only [quarterInv, quarterround, xor_cancel]

/-- Inverse of the row round. -/
def rowInv (z : Spec.Salsa20.State) : Spec.Salsa20.State :=
  let a := quarterInv (z[0], z[1], z[2], z[3])
  let b := quarterInv (z[5], z[6], z[7], z[4])
  let c := quarterInv (z[10], z[11], z[8], z[9])
  let d := quarterInv (z[15], z[12], z[13], z[14])
  #v[a.1, a.2.1, a.2.2.1, a.2.2.2, b.2.2.2, b.1, b.2.1, b.2.2.1, c.2.2.1, c.2.2.2, c.1, c.2.1, d.2.1, d.2.2.1, d.2.2.2, d.1]

theorem state_eta (z : Spec.Salsa20.State) :
    #v[z[0], z[1], z[2], z[3], z[4], z[5], z[6], z[7], z[8], z[9], z[10], z[11], z[12], z[13], z[14], z[15]] = z := by
  apply Vector.ext
  intro i hi
  rcases i with _ | _ | _ | _ | _ | _ | _ | _ | _ | _ | _ | _ | _ | _ | _ | _ | i <;> first | rfl | omega

theorem rowInv_rowround (y : Spec.Salsa20.State) : rowInv (rowround y) = y := by
  have ha : quarterInv ((rowround y)[0], (rowround y)[1], (rowround y)[2], (rowround y)[3]) = _ :=
    quarterInv_quarterround (y[0], y[1], y[2], y[3])
  have hb : quarterInv ((rowround y)[5], (rowround y)[6], (rowround y)[7], (rowround y)[4]) = _ :=
    quarterInv_quarterround (y[5], y[6], y[7], y[4])
  have hc : quarterInv ((rowround y)[10], (rowround y)[11], (rowround y)[8], (rowround y)[9]) = _ :=
    quarterInv_quarterround (y[10], y[11], y[8], y[9])
  have hd : quarterInv ((rowround y)[15], (rowround y)[12], (rowround y)[13], (rowround y)[14]) = _ :=
    quarterInv_quarterround (y[15], y[12], y[13], y[14])
  rw [rowInv]
  simp only [ha, hb, hc, hd]
  exact state_eta y

theorem rowround_rowInv (z : Spec.Salsa20.State) : rowround (rowInv z) = z := by
  have ha : quarterround ((rowInv z)[0], (rowInv z)[1], (rowInv z)[2], (rowInv z)[3]) = _ :=
    quarterround_quarterInv (z[0], z[1], z[2], z[3])
  have hb : quarterround ((rowInv z)[5], (rowInv z)[6], (rowInv z)[7], (rowInv z)[4]) = _ :=
    quarterround_quarterInv (z[5], z[6], z[7], z[4])
  have hc : quarterround ((rowInv z)[10], (rowInv z)[11], (rowInv z)[8], (rowInv z)[9]) = _ :=
    quarterround_quarterInv (z[10], z[11], z[8], z[9])
  have hd : quarterround ((rowInv z)[15], (rowInv z)[12], (rowInv z)[13], (rowInv z)[14]) = _ :=
    quarterround_quarterInv (z[15], z[12], z[13], z[14])
  rw [rowround]
  simp only [ha, hb, hc, hd]
  exact state_eta z

theorem transpose_transpose (z : Spec.Salsa20.State) : transpose (transpose z) = z := state_eta z

def doubleInv (z : Spec.Salsa20.State) : Spec.Salsa20.State := transpose (rowInv (transpose (rowInv z)))

theorem doubleInv_doubleround (x : Spec.Salsa20.State) : doubleInv (doubleround x) = x := by
  rw [doubleInv, doubleround, columnround, rowInv_rowround, transpose_transpose, rowInv_rowround, transpose_transpose]

theorem doubleround_doubleInv (x : Spec.Salsa20.State) : doubleround (doubleInv x) = x := by
  rw [doubleInv, doubleround, columnround, transpose_transpose, rowround_rowInv, transpose_transpose, rowround_rowInv]

theorem doubleroundN_injective (n : Nat) : Function.Injective (doubleroundN n) := by
  induction n with
  | zero => exact fun _ _ h => h
  | succ n ih =>
    intro a b h
    apply ih
    have := congrArg doubleInv h
    simpa only [doubleroundN, doubleInv_doubleround] using this

theorem doubleroundN_surjective (n : Nat) : Function.Surjective (doubleroundN n) := by
  induction n with
  | zero => exact fun b => ⟨b, rfl⟩
  | succ n ih =>
    intro b
    obtain ⟨a, ha⟩ := ih (doubleInv b)
    exact ⟨a, by rw [doubleroundN, ha, doubleround_doubleInv]⟩

/-- **C14.** The double round of the code is a permutation of the 16-word states (it has a two-sided inverse). -/
theorem C14_doubleround_permutation :
    Function.Injective Verif.Salsa20.doubleround ∧ Function.Surjective Verif.Salsa20.doubleround := by
  constructor
  · intro a b h
    rw [doubleround_eq, doubleround_eq] at h
    have := congrArg doubleInv h
    rwa [doubleInv_doubleround, doubleInv_doubleround] at this
  · intro b
    exact ⟨doubleInv b, by rw [doubleround_eq, doubleround_doubleInv]⟩

theorem leInv_bytes (x : U32) : Spec.Salsa20.littleendian (Spec.byteAt (Spec.Salsa20.littleendianInv x) 0)
    (Spec.byteAt (Spec.Salsa20.littleendianInv x) 1) (Spec.byteAt (Spec.Salsa20.littleendianInv x) 2)
    (Spec.byteAt (Spec.Salsa20.littleendianInv x) 3) = x := by
  apply BitVec.eq_of_toNat_eq
  have := x.isLt
  simp only [Spec.Salsa20.littleendian, Spec.Salsa20.littleendianInv, Spec.byteAt, List.range, List.range.loop, List.map,
    List.getD_cons_zero, List.getD_cons_succ, BitVec.toNat_ofNat]
  omega

theorem byteAt_flatMap_inv (L : List U32) (i j : Nat) (hi : i < L.length) (hj : j < 4) :
    Spec.byteAt (L.flatMap Spec.Salsa20.littleendianInv) (4 * i + j) =
      Spec.byteAt (Spec.Salsa20.littleendianInv L[i]) j := by
  induction L generalizing i with
  | nil => simp at hi
  | cons a L ih =>
    rw [List.flatMap_cons]
    have hl : (Spec.Salsa20.littleendianInv a).length = 4 := by simp [Spec.Salsa20.littleendianInv]
    cases i with
    | zero =>
      rw [Sha256.byteAt_append_left _ _ _ (by omega), Nat.mul_zero, Nat.zero_add]
      rfl
    | succ i =>
      rw [show 4 * (i + 1) + j = (Spec.Salsa20.littleendianInv a).length + (4 * i + j) by omega,
        Sha256.byteAt_append_right]
      exact ih i (by simpa using hi)

/-- The words of the stored output are the sums. -/
theorem words_core (n : Nat) (x : List U8) :
    words (core n x) = Vector.zipWith (· + ·) (doubleroundN n (words x)) (words x) := by
  apply Vector.ext
  intro i hi
  have h := byteAt_flatMap_inv (Vector.zipWith (· + ·) (doubleroundN n (words x)) (words x)).toList i
  have hi' : i < (Vector.zipWith (· + ·) (doubleroundN n (words x)) (words x)).toList.length := by
    rw [Vector.length_toList]; exact hi
  generalize hL : Vector.zipWith (· + ·) (doubleroundN n (words x)) (words x) = V at *
  have hw : (words (core n x))[i] = Spec.Salsa20.littleendian (Spec.byteAt (core n x) (4 * i))
      (Spec.byteAt (core n x) (4 * i + 1)) (Spec.byteAt (core n x) (4 * i + 2)) (Spec.byteAt (core n x) (4 * i + 3)) := by
    rw [words, Vector.getElem_ofFn]
  rw [hw, core, hL, show 4 * i = 4 * i + 0 from rfl, h 0 hi' (by decide), show 4 * i + 0 = 4 * i from rfl,
    h 1 hi' (by decide), h 2 hi' (by decide), h 3 hi' (by decide), leInv_bytes, Vector.getElem_toList]

theorem littleendian_injective (a0 a1 a2 a3 b0 b1 b2 b3 : U8)
    (h : Spec.Salsa20.littleendian a0 a1 a2 a3 = Spec.Salsa20.littleendian b0 b1 b2 b3) :
    a0 = b0 ∧ a1 = b1 ∧ a2 = b2 ∧ a3 = b3 := by
  have h := congrArg BitVec.toNat h
  have := a0.isLt; have := a1.isLt; have := a2.isLt; have := a3.isLt
  have := b0.isLt; have := b1.isLt; have := b2.isLt; have := b3.isLt
  simp only [Spec.Salsa20.littleendian, BitVec.toNat_ofNat] at h
  refine ⟨?_, ?_, ?_, ?_⟩ <;> apply BitVec.eq_of_toNat_eq <;> omega

theorem words_injective (x y : List U8) (hx : x.length = 64) (hy : y.length = 64) (h : words x = words y) : x = y := by
  apply List.ext_getElem (by omega)
  intro k h1 h2
  have hk : k / 4 < 16 := by omega
  have hw : (words x)[k / 4] = (words y)[k / 4] := by rw [h]
  simp only [words, Vector.getElem_ofFn] at hw
  obtain ⟨e0, e1, e2, e3⟩ := littleendian_injective _ _ _ _ _ _ _ _ hw
  have hb : Spec.byteAt x k = Spec.byteAt y k := by
    have : k % 4 < 4 := Nat.mod_lt _ (by decide)
    rcases (show k % 4 = 0 ∨ k % 4 = 1 ∨ k % 4 = 2 ∨ k % 4 = 3 by omega) with c | c | c | c
    · rw [show k = 4 * (k / 4) by omega]; exact e0
    · rw [show k = 4 * (k / 4) + 1 by omega]; exact e1
    · rw [show k = 4 * (k / 4) + 2 by omega]; exact e2
    · rw [show k = 4 * (k / 4) + 3 by omega]; exact e3
  simpa [Spec.byteAt, List.getD_eq_getElem?_getD, h1, h2] using hb

/-- **C14.** Once the feed-forward is taken away the input can be recovered: two 64-byte inputs for which
output minus input (word by word) agree are equal, whatever the number of rounds. -/
theorem C14_no_collapse (rounds : Nat) (x x' out out' o o' : List U8) (hx : x.length = 64) (hx' : x'.length = 64)
    (ho : out.length = 64) (ho' : out'.length = 64)
    (h : salsa20 x rounds out = .ok o) (h' : salsa20 x' rounds out' = .ok o')
    (hd : ∀ i (hi : i < 16), (words o)[i] - (words x)[i] = (words o')[i] - (words x')[i]) : x = x' := by
  rw [C12_salsa20_correct x out rounds hx ho, Except.ok.injEq] at h
  rw [C12_salsa20_correct x' out' rounds hx' ho', Except.ok.injEq] at h'
  apply words_injective x x' hx hx'
  apply doubleroundN_injective rounds
  apply Vector.ext
  intro i hi
  have := hd i hi
  rwa [← h, ← h', words_core, words_core, Vector.getElem_zipWith, Vector.getElem_zipWith, BitVec.add_sub_cancel,
    BitVec.add_sub_cancel] at this

/-- Two different inputs, run for the four double rounds of scrypt: their differences output − input cannot agree. -/
example (out o o' : List U8) (ho : out.length = 64)
    (h : salsa20 (List.replicate 64 1) 4 out = .ok o) (h' : salsa20 (List.replicate 64 2) 4 out = .ok o') :
    ¬ ∀ i (hi : i < 16), (words o)[i] - (words (List.replicate 64 1))[i] =
      (words o')[i] - (words (List.replicate 64 2))[i] := by
  intro hd
  have := C14_no_collapse 4 _ _ out out o o' (List.length_replicate) (List.length_replicate) ho ho h h' hd
  exact absurd this (by decide)

/-! ### C15: flipping the top bits -/

/-- The mask with only the most significant bit. -/
abbrev top : U32 := 0x80000000#32

theorem top_add_top : top + top = 0#32 := by decide

theorem xor_top (x : U32) : x ^^^ top = x + top := by
  by_cases h : x &&& top = 0#32
  · rw [BitVec.add_eq_or_of_and_eq_zero _ _ h]
    apply BitVec.eq_of_getLsbD_eq
    intro i hi
    have := congrArg (·.getLsbD i) h
    simp only [BitVec.getLsbD_and, BitVec.getLsbD_xor, BitVec.getLsbD_or, BitVec.getLsbD_zero] at this ⊢
    revert this
    cases x.getLsbD i <;> cases top.getLsbD i <;> simp
  · have hm : x.getLsbD 31 = true := by
      apply Classical.byContradiction
      intro hn
      apply h
      apply BitVec.eq_of_getLsbD_eq
      intro i hi
      simp only [BitVec.getLsbD_and, BitVec.getLsbD_zero]
      by_cases hi' : i = 31
      · subst hi'; simp only [Bool.not_eq_true] at hn; rw [hn]; rfl
      · have : ∀ i : Fin 32, i.val ≠ 31 → top.getLsbD i = false := by decide
        rw [this ⟨i, hi⟩ hi', Bool.and_false]
    have hy : (x ^^^ top) &&& top = 0#32 := by
      apply BitVec.eq_of_getLsbD_eq
      intro i hi
      simp only [BitVec.getLsbD_and, BitVec.getLsbD_xor, BitVec.getLsbD_zero]
      by_cases hi' : i = 31
      · subst hi'; rw [hm]; rfl
      · have : ∀ i : Fin 32, i.val ≠ 31 → top.getLsbD i = false := by decide
        rw [this ⟨i, hi⟩ hi', Bool.and_false]
    have hx : x = (x ^^^ top) + top := by
      rw [BitVec.add_eq_or_of_and_eq_zero _ _ hy]
      apply BitVec.eq_of_getLsbD_eq
      intro i hi
      have := congrArg (·.getLsbD i) hy
      simp only [BitVec.getLsbD_and, BitVec.getLsbD_xor, BitVec.getLsbD_or, BitVec.getLsbD_zero] at this ⊢
      revert this
      cases x.getLsbD i <;> cases top.getLsbD i <;> simp
    conv => rhs; rw [hx]
    rw [BitVec.add_assoc, top_add_top, BitVec.add_zero]

theorem xor_top_add (x y : U32) : (x ^^^ top) + (y ^^^ top) = x + y := by
  rw [xor_top, xor_top, BitVec.add_assoc, BitVec.add_comm top (y + top), BitVec.add_assoc, top_add_top, BitVec.add_zero]

/-- Flip the top bits of four words. -/
def flip4 (y : U32 × U32 × U32 × U32) : U32 × U32 × U32 × U32 :=
  (y.1 ^^^ top, y.2.1 ^^^ top, y.2.2.1 ^^^ top, y.2.2.2 ^^^ top)

theorem xor_right_comm {w : Nat} (a b c : BitVec w) : a ^^^ b ^^^ c = a ^^^ c ^^^ b := by
  rw [BitVec.xor_assoc, BitVec.xor_comm b c, ← BitVec.xor_assoc]

theorem quarterround_flip (y : U32 × U32 × U32 × U32) : quarterround (flip4 y) = flip4 (quarterround y) := by
  obtain ⟨y0, y1, y2, y3⟩ := y
  simp only [quarterround, flip4, xor_top_add, xor_right_comm _ top]

def flip (x : Spec.Salsa20.State) : Spec.Salsa20.State := x.map (· ^^^ top)

theorem flip_get (x : Spec.Salsa20.State) (i : Nat) (hi : i < 16) : (flip x)[i] = x[i] ^^^ top := by
  rw [flip, Vector.getElem_map]

theorem rowround_flip (y : Spec.Salsa20.State) : rowround (flip y) = flip (rowround y) := by
  have ha := quarterround_flip (y[0], y[1], y[2], y[3])
  have hb := quarterround_flip (y[5], y[6], y[7], y[4])
  have hc := quarterround_flip (y[10], y[11], y[8], y[9])
  have hd := quarterround_flip (y[15], y[12], y[13], y[14])
  rw [rowround]
  simp only [flip_get]
  simp only [flip4] at ha hb hc hd
  simp only [ha, hb, hc, hd]
  rw [rowround]
  refine Eq.trans ?_ (state_eta (flip _))
  simp only [flip_get]
  rfl

theorem transpose_flip (y : Spec.Salsa20.State) : transpose (flip y) = flip (transpose y) := by
  rw [transpose, transpose]
  refine Eq.trans ?_ (state_eta (flip _))
  simp only [flip_get]
  rfl

theorem doubleroundN_flip (n : Nat) (y : Spec.Salsa20.State) : doubleroundN n (flip y) = flip (doubleroundN n y) := by
  induction n with
  | zero => rfl
  | succ n ih =>
    rw [doubleroundN, doubleroundN, ih, doubleround, doubleround, columnround, columnround, transpose_flip, rowround_flip,
      transpose_flip, rowround_flip]

/-- Flip the most significant bit of every little-endian word of a byte string. -/
def flipBytes (x : List U8) : List U8 := x.mapIdx fun i b => if i % 4 = 3 then b ^^^ 0x80 else b

theorem byteAt_flipBytes (x : List U8) (k : Nat) (hk : k < x.length) :
    Spec.byteAt (flipBytes x) k = if k % 4 = 3 then Spec.byteAt x k ^^^ 0x80 else Spec.byteAt x k := by
  simp [Spec.byteAt, flipBytes, List.getD_eq_getElem?_getD, hk]

theorem byte_xor_80 : ∀ b : Fin 256, (BitVec.ofFin b ^^^ (0x80 : U8)).toNat = (b.val + 128) % 256 := by decide +kernel

theorem flip_arith (a b c d : Nat) (hd : d < 256) :
    (a + 2 ^ 8 * b + 2 ^ 16 * c + 2 ^ 24 * ((d + 128) % 256)) % 2 ^ 32 =
      ((a + 2 ^ 8 * b + 2 ^ 16 * c + 2 ^ 24 * d) % 2 ^ 32 + 2 ^ 31) % 2 ^ 32 := by
  rcases (show d < 128 ∨ 128 ≤ d by omega) with h | h
  · rw [Nat.mod_eq_of_lt (show d + 128 < 256 by omega), Nat.mod_add_mod,
      show a + 2 ^ 8 * b + 2 ^ 16 * c + 2 ^ 24 * (d + 128) = a + 2 ^ 8 * b + 2 ^ 16 * c + 2 ^ 24 * d + 2 ^ 31 by omega]
  · rw [show (d + 128) % 256 = d - 128 by omega, Nat.mod_add_mod,
      show a + 2 ^ 8 * b + 2 ^ 16 * c + 2 ^ 24 * d + 2 ^ 31 = a + 2 ^ 8 * b + 2 ^ 16 * c + 2 ^ 24 * (d - 128) + 2 ^ 32 by omega,
      Nat.add_mod_right]

theorem littleendian_flip (b0 b1 b2 b3 : U8) :
    Spec.Salsa20.littleendian b0 b1 b2 (b3 ^^^ 0x80) = Spec.Salsa20.littleendian b0 b1 b2 b3 ^^^ top := by
  rw [xor_top]
  apply BitVec.eq_of_toNat_eq
  have h' : (b3 ^^^ 0x80).toNat = (b3.toNat + 128) % 256 := byte_xor_80 b3.toFin
  have ht : top.toNat = 2 ^ 31 := rfl
  rw [BitVec.toNat_add, ht, Spec.Salsa20.littleendian, Spec.Salsa20.littleendian, BitVec.toNat_ofNat, BitVec.toNat_ofNat, h']
  exact flip_arith _ _ _ _ b3.isLt

theorem words_flipBytes (x : List U8) (hx : 64 ≤ x.length) : words (flipBytes x) = flip (words x) := by
  apply Vector.ext
  intro i hi
  rw [flip_get _ _ hi]
  simp only [words, Vector.getElem_ofFn]
  rw [byteAt_flipBytes _ _ (by omega), byteAt_flipBytes _ _ (by omega), byteAt_flipBytes _ _ (by omega),
    byteAt_flipBytes _ _ (by omega), if_neg (by omega), if_neg (by omega), if_neg (by omega), if_pos (by omega),
    littleendian_flip]

/-- **C15.** Flipping the top bit of all sixteen words of the input never changes the output. -/
theorem C15_collision (x output : List U8) (rounds : Nat) (hx : x.length = 64) (ho : output.length = 64) :
    salsa20 (flipBytes x) rounds output = salsa20 x rounds output ∧ flipBytes x ≠ x := by
  have hl : (flipBytes x).length = 64 := by simp [flipBytes, hx]
  constructor
  · rw [C12_salsa20_correct _ _ _ hl ho, C12_salsa20_correct _ _ _ hx ho, core, core, words_flipBytes _ (by omega),
      doubleroundN_flip]
    congr 3
    apply Vector.ext
    intro i hi
    rw [Vector.getElem_zipWith, Vector.getElem_zipWith, flip_get _ _ hi, flip_get _ _ hi, xor_top_add]
  · intro h
    have h3 := byteAt_flipBytes x 3 (by omega)
    rw [h, if_pos rfl] at h3
    have := congrArg (· ^^^ Spec.byteAt x 3) h3
    simp only [BitVec.xor_self, xor_right_comm _ (0x80 : U8)] at this
    revert this
    decide

/-- The all-zero input collides with the input whose words are all `0x80000000`. -/
example : salsa20 (flipBytes (List.replicate 64 0)) 4 (List.replicate 64 0) =
    salsa20 (List.replicate 64 0) 4 (List.replicate 64 0) :=
  (C15_collision _ _ 4 List.length_replicate List.length_replicate).1

end Verif.Props.Salsa20
