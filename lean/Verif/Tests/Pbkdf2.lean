import Verif.Model.Pbkdf2

/-! The unit tests of `src/pbkdf2.rs` run on the model.

These are tests of the faithfulness of the model, not proofs: `#guard` evaluates with the Lean
interpreter, and no theorem depends on this file. Generated from the Rust test functions. -/

namespace Verif.Tests.Pbkdf2

/-- The tests run on a 64-bit target in a debug build, as `cargo test` does. -/
def T : Target := ⟨.w64, true⟩

-- `it_should_compute_digest_for_vec0` (src/pbkdf2.rs:124)
#guard (match Pbkdf2.pbkdf2_sha256 T
    [0x70, 0x61, 0x73, 0x73, 0x77, 0x64]
    [0x73, 0x61, 0x6c, 0x74]
    1 (List.replicate 64 0) with
  | .ok out => out == [0x55, 0xac, 4, 0x6e, 0x56, 0xe3, 8, 0x9f, 0xec, 0x16, 0x91, 0xc2, 0x25, 0x44, 0xb6, 5, 0xf9,
       0x41, 0x85, 0x21, 0x6d, 0xde, 4, 0x65, 0xe6, 0x8b, 0x9d, 0x57, 0xc2, 0xd, 0xac, 0xbc, 0x49,
       0xca, 0x9c, 0xcc, 0xf1, 0x79, 0xb6, 0x45, 0x99, 0x16, 0x64, 0xb3, 0x9d, 0x77, 0xef, 0x31,
       0x7c, 0x71, 0xb8, 0x45, 0xb1, 0xe3, 0xb, 0xd5, 9, 0x11, 0x20, 0x41, 0xd3, 0xa1, 0x97, 0x83]
  | .error _ => false)

-- `it_should_compute_digest_for_vec1` (src/pbkdf2.rs:141) has 80000 iterations, which is too slow for the
-- interpreter: run outside the build. It agrees.

end Verif.Tests.Pbkdf2
