import Verif.Model.Scrypt

/-! The unit tests of `src/scrypt.rs` run on the model.

These are tests of the faithfulness of the model, not proofs: `#guard` evaluates with the Lean
interpreter, and no theorem depends on this file. Generated from the Rust test functions. -/

namespace Verif.Tests.Scrypt

/-- The tests run on a 64-bit target in a debug build, as `cargo test` does. -/
def T : Target := ⟨.w64, true⟩

/-- `check_mix` (the test helper of src/scrypt.rs). -/
def check_mix (r : Nat) (input expected : List (List U8)) : Bool :=
  match (Scrypt.Scrypt.new r 1 1).block_mix T input with
  | .ok out => out == expected
  | .error _ => false

/-- `check_ro_mix` (the test helper of src/scrypt.rs). -/
def check_ro_mix (r n : Nat) (input expected : List (List U8)) : Bool :=
  match (Scrypt.Scrypt.new r n 1).ro_mix T input with
  | .ok out => out == expected
  | .error _ => false

/-- A derivation, its result and its output. -/
def check_derive (r n p : Nat) (passphrase salt expected : List U8) : Bool :=
  match (Scrypt.Scrypt.new r n p).derive T passphrase salt (List.replicate expected.length 0) with
  | .ok (out, .ok ()) => out == expected
  | _ => false

-- `it_should_compute_block_mix_for_vec0` (src/scrypt.rs:315)
#guard check_mix 1
    [[0xf7, 0xce, 0xb, 0x65, 0x3d, 0x2d, 0x72, 0xa4, 0x10, 0x8c, 0xf5, 0xab, 0xe9, 0x12, 0xff, 0xdd,
      0x77, 0x76, 0x16, 0xdb, 0xbb, 0x27, 0xa7, 0xe, 0x82, 4, 0xf3, 0xae, 0x2d, 0xf, 0x6f, 0xad,
      0x89, 0xf6, 0x8f, 0x48, 0x11, 0xd1, 0xe8, 0x7b, 0xcc, 0x3b, 0xd7, 0x40, 0xa, 0x9f, 0xfd, 0x29,
      9, 0x4f, 1, 0x84, 0x63, 0x95, 0x74, 0xf3, 0x9a, 0xe5, 0xa1, 0x31, 0x52, 0x17, 0xbc, 0xd7],
     [0x89, 0x49, 0x91, 0x44, 0x72, 0x13, 0xbb, 0x22, 0x6c, 0x25, 0xb5, 0x4d, 0xa8, 0x63, 0x70,
      0xfb, 0xcd, 0x98, 0x43, 0x80, 0x37, 0x46, 0x66, 0xbb, 0x8f, 0xfc, 0xb5, 0xbf, 0x40, 0xc2,
      0x54, 0xb0, 0x67, 0xd2, 0x7c, 0x51, 0xce, 0x4a, 0xd5, 0xfe, 0xd8, 0x29, 0xc9, 0xb, 0x50, 0x5a,
      0x57, 0x1b, 0x7f, 0x4d, 0x1c, 0xad, 0x6a, 0x52, 0x3c, 0xda, 0x77, 0xe, 0x67, 0xbc, 0xea, 0xaf,
      0x7e, 0x89]]
    [[0xa4, 0x1f, 0x85, 0x9c, 0x66, 8, 0xcc, 0x99, 0x3b, 0x81, 0xca, 0xcb, 2, 0xc, 0xef, 5, 4, 0x4b,
      0x21, 0x81, 0xa2, 0xfd, 0x33, 0x7d, 0xfd, 0x7b, 0x1c, 0x63, 0x96, 0x68, 0x2f, 0x29, 0xb4,
      0x39, 0x31, 0x68, 0xe3, 0xc9, 0xe6, 0xbc, 0xfe, 0x6b, 0xc5, 0xb7, 0xa0, 0x6d, 0x96, 0xba,
      0xe4, 0x24, 0xcc, 0x10, 0x2c, 0x91, 0x74, 0x5c, 0x24, 0xad, 0x67, 0x3d, 0xc7, 0x61, 0x8f, 0x81],
     [0x20, 0xed, 0xc9, 0x75, 0x32, 0x38, 0x81, 0xa8, 5, 0x40, 0xf6, 0x4c, 0x16, 0x2d, 0xcd, 0x3c,
      0x21, 7, 0x7c, 0xfe, 0x5f, 0x8d, 0x5f, 0xe2, 0xb1, 0xa4, 0x16, 0x8f, 0x95, 0x36, 0x78, 0xb7,
      0x7d, 0x3b, 0x3d, 0x80, 0x3b, 0x60, 0xe4, 0xab, 0x92, 9, 0x96, 0xe5, 0x9b, 0x4d, 0x53, 0xb6,
      0x5d, 0x2a, 0x22, 0x58, 0x77, 0xd5, 0xed, 0xf5, 0x84, 0x2c, 0xb9, 0xf1, 0x4e, 0xef, 0xe4, 0x25]]

-- `it_should_compute_ro_mix_for_vec0` (src/scrypt.rs:359)
#guard check_ro_mix 1
    16
    [[0xf7, 0xce, 0xb, 0x65, 0x3d, 0x2d, 0x72, 0xa4, 0x10, 0x8c, 0xf5, 0xab, 0xe9, 0x12, 0xff, 0xdd,
      0x77, 0x76, 0x16, 0xdb, 0xbb, 0x27, 0xa7, 0xe, 0x82, 4, 0xf3, 0xae, 0x2d, 0xf, 0x6f, 0xad,
      0x89, 0xf6, 0x8f, 0x48, 0x11, 0xd1, 0xe8, 0x7b, 0xcc, 0x3b, 0xd7, 0x40, 0xa, 0x9f, 0xfd, 0x29,
      9, 0x4f, 1, 0x84, 0x63, 0x95, 0x74, 0xf3, 0x9a, 0xe5, 0xa1, 0x31, 0x52, 0x17, 0xbc, 0xd7],
     [0x89, 0x49, 0x91, 0x44, 0x72, 0x13, 0xbb, 0x22, 0x6c, 0x25, 0xb5, 0x4d, 0xa8, 0x63, 0x70,
      0xfb, 0xcd, 0x98, 0x43, 0x80, 0x37, 0x46, 0x66, 0xbb, 0x8f, 0xfc, 0xb5, 0xbf, 0x40, 0xc2,
      0x54, 0xb0, 0x67, 0xd2, 0x7c, 0x51, 0xce, 0x4a, 0xd5, 0xfe, 0xd8, 0x29, 0xc9, 0xb, 0x50, 0x5a,
      0x57, 0x1b, 0x7f, 0x4d, 0x1c, 0xad, 0x6a, 0x52, 0x3c, 0xda, 0x77, 0xe, 0x67, 0xbc, 0xea, 0xaf,
      0x7e, 0x89]]
    [[0x79, 0xcc, 0xc1, 0x93, 0x62, 0x9d, 0xeb, 0xca, 4, 0x7f, 0xb, 0x70, 0x60, 0x4b, 0xf6, 0xb6,
      0x2c, 0xe3, 0xdd, 0x4a, 0x96, 0x26, 0xe3, 0x55, 0xfa, 0xfc, 0x61, 0x98, 0xe6, 0xea, 0x2b,
      0x46, 0xd5, 0x84, 0x13, 0x67, 0x3b, 0x99, 0xb0, 0x29, 0xd6, 0x65, 0xc3, 0x57, 0x60, 0x1f,
      0xb4, 0x26, 0xa0, 0xb2, 0xf4, 0xbb, 0xa2, 0, 0xee, 0x9f, 0xa, 0x43, 0xd1, 0x9b, 0x57, 0x1a,
      0x9c, 0x71],
     [0xef, 0x11, 0x42, 0xe6, 0x5d, 0x5a, 0x26, 0x6f, 0xdd, 0xca, 0x83, 0x2c, 0xe5, 0x9f, 0xaa,
      0x7c, 0xac, 0xb, 0x9c, 0xf1, 0xbe, 0x2b, 0xff, 0xca, 0x30, 0xd, 1, 0xee, 0x38, 0x76, 0x19,
      0xc4, 0xae, 0x12, 0xfd, 0x44, 0x38, 0xf2, 3, 0xa0, 0xe4, 0xe1, 0xc4, 0x7e, 0xc3, 0x14, 0x86,
      0x1f, 0x4e, 0x90, 0x87, 0xcb, 0x33, 0x39, 0x6a, 0x68, 0x73, 0xe8, 0xf9, 0xd2, 0x53, 0x9a,
      0x4b, 0x8e]]

-- `it_should_compute_scrypt_for_vec0` (src/scrypt.rs:401)
#guard check_derive 1 16 1
    []
    []
    [0x77, 0xd6, 0x57, 0x62, 0x38, 0x65, 0x7b, 0x20, 0x3b, 0x19, 0xca, 0x42, 0xc1, 0x8a, 4, 0x97,
     0xf1, 0x6b, 0x48, 0x44, 0xe3, 7, 0x4a, 0xe8, 0xdf, 0xdf, 0xfa, 0x3f, 0xed, 0xe2, 0x14, 0x42,
     0xfc, 0xd0, 6, 0x9d, 0xed, 9, 0x48, 0xf8, 0x32, 0x6a, 0x75, 0x3a, 0xf, 0xc8, 0x1f, 0x17, 0xe8,
     0xd3, 0xe0, 0xfb, 0x2e, 0xd, 0x36, 0x28, 0xcf, 0x35, 0xe2, 0xc, 0x38, 0xd1, 0x89, 6]

-- `it_should_compute_scrypt_for_vec1` (src/scrypt.rs:420) has r = 8, N = 1024, p = 16, too slow for the interpreter:
-- run outside the build, with the model compiled to machine code. It agrees.

-- `it_should_compute_scrypt_for_vec2` (src/scrypt.rs:439) has r = 8, N = 16384, p = 1, too slow for the interpreter:
-- run outside the build, with the model compiled to machine code. It agrees.

-- `it_should_compute_scrypt_for_vec3` (src/scrypt.rs:458) has r = 8, N = 1048576, p = 1: not run, the lists of the
-- model would take too much memory.

-- The example of the README (README.md:31-41), which is also the doc test of the crate.
#guard check_derive 1 128 1
    [0x70, 0x61, 0x73, 0x73, 0x70, 0x68, 0x72, 0x61, 0x73, 0x65]
    [0x73, 0x61, 0x6c, 0x74]
    [0x4f, 0x23, 0xe1, 0x63, 0x91, 0x91, 0xac, 0xf5]

end Verif.Tests.Scrypt
