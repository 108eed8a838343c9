import Mathlib.Algebra.Polynomial.Basic
import Mathlib.Data.ZMod.Basic

/-! Bytes as polynomials over GF(2), with Mathlib's polynomials. -/

namespace Spec.Aes
open Polynomial

/-- The polynomial over GF(2) with the low `w` bits of `n` as coefficients. -/
noncomputable def natPoly (w n : Nat) : (ZMod 2)[X] :=
  ∑ i ∈ Finset.range w, if n.testBit i then X ^ i else 0

/-- The modulus of FIPS-197, section 4.2. -/
noncomputable def aesPoly : (ZMod 2)[X] := X ^ 8 + X ^ 4 + X ^ 3 + X + 1

end Spec.Aes
