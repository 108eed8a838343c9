import Verif.Model.Salsa20

/-! The unit tests of `src/salsa20.rs` run on the model.

These are tests of the faithfulness of the model, not proofs: `#guard` evaluates with the Lean
interpreter, and no theorem depends on this file. Generated from the Rust test functions. -/

namespace Verif.Tests.Salsa20

/-- The tests run on a 64-bit target in a debug build, as `cargo test` does. -/
def T : Target := ⟨.w64, true⟩

/-- `check` (the test helper of src/salsa20.rs). -/
def check (input : List U8) (rounds : Nat) (expected : List U8) : Bool :=
  match Salsa20.salsa20 input rounds (List.replicate 64 0) with
  | .ok out => out == expected
  | .error _ => false

-- `it_should_compute_quarterround_for_vec0` (src/salsa20.rs:224)
#guard (Salsa20.quarterround #v[0, 0, 0, 0]).toList ==
    [0, 0, 0, 0]

-- `it_should_compute_quarterround_for_vec1` (src/salsa20.rs:232)
#guard (Salsa20.quarterround #v[1, 0, 0, 0]).toList ==
    [0x8008145, 0x80, 0x10200, 0x20500000]

-- `it_should_compute_quarterround_for_vec2` (src/salsa20.rs:240)
#guard (Salsa20.quarterround #v[0, 1, 0, 0]).toList ==
    [0x88000100, 1, 0x200, 0x402000]

-- `it_should_compute_quarterround_for_vec3` (src/salsa20.rs:248)
#guard (Salsa20.quarterround #v[0, 0, 1, 0]).toList ==
    [0x80040000, 0, 1, 0x2000]

-- `it_should_compute_quarterround_for_vec4` (src/salsa20.rs:256)
#guard (Salsa20.quarterround #v[0, 0, 0, 1]).toList ==
    [0x48044, 0x80, 0x10000, 0x20100001]

-- `it_should_compute_quarterround_for_vec5` (src/salsa20.rs:264)
#guard (Salsa20.quarterround #v[0xe7e8c006, 0xc4f9417d, 0x6479b4b2, 0x68c67137]).toList ==
    [0xe876d72b, 0x9361dfd5, 0xf1460244, 0x948541a3]

-- `it_should_compute_quarterround_for_vec6` (src/salsa20.rs:272)
#guard (Salsa20.quarterround #v[0xd3917c5b, 0x55f1c407, 0x52a58a7a, 0x8f887a3b]).toList ==
    [0x3e2f308c, 0xd90a8f36, 0x6ab2a923, 0x2883524c]

-- `it_should_compute_columnround_for_vec0` (src/salsa20.rs:286)
#guard (Salsa20.columnround #v[1, 0, 0, 0, 1, 0, 0, 0, 1, 0, 0, 0, 1, 0, 0, 0]).toList ==
    [0x10090288, 0, 0, 0, 0x101, 0, 0, 0, 0x20401, 0, 0, 0, 0x40a04001, 0, 0, 0]

-- `it_should_compute_columnround_for_vec1` (src/salsa20.rs:328)
#guard (Salsa20.columnround #v[0x8521bd6, 0x1fe88837, 0xbb2aa576, 0x3aa26365, 0xc54c6a5b, 0x2fc74c2f, 0x6dd39cc3,
       0xda0a64f6, 0x90a2f23d, 0x67f95a6, 0x6b35f61, 0x41e4732e, 0xe859c100, 0xea4d84b7, 0xf619bff,
       0xbc6e965a]).toList ==
    [0x8c9d190a, 0xce8e4c90, 0x1ef8e9d3, 0x1326a71a, 0x90a20123, 0xead3c4f3, 0x63a091a0, 0xf0708d69,
     0x789b010c, 0xd195a681, 0xeb7d5504, 0xa774135c, 0x481c2027, 0x53a8e4b5, 0x4c1f89c5, 0x3f78c9c8]

-- `it_should_compute_doubleround_for_vec0` (src/salsa20.rs:376)
#guard (Salsa20.doubleround #v[1, 0, 0, 0, 0, 0, 0, 0, 0, 0, 0, 0, 0, 0, 0, 0]).toList ==
    [0x8186a22d, 0x40a284, 0x82479210, 0x6929051, 0x8000090, 0x2402200, 0x4000, 0x800000, 0x10200,
     0x20400000, 0x8008104, 0, 0x20500000, 0xa0000040, 0x8180a, 0x612a8020]

-- `it_should_compute_doubleround_for_vec1` (src/salsa20.rs:418)
#guard (Salsa20.doubleround #v[0xde501066, 0x6f9eb8f7, 0xe4fbbd9b, 0x454e3f57, 0xb75540d3, 0x43e93a4c, 0x3a6f2aa0,
       0x726d6b36, 0x9243f484, 0x9145d1e8, 0x4fa9d247, 0xdc8dee11, 0x54bf545, 0x254dd653,
       0xd9421b6d, 0x67b276c1]).toList ==
    [0xccaaf672, 0x23d960f7, 0x9153e63a, 0xcd9a60d0, 0x50440492, 0xf07cad19, 0xae344aa0, 0xdf4cfdfc,
     0xca531c29, 0x8e7943db, 0xac1680cd, 0xd503ca00, 0xa74b2ad6, 0xbc331c5c, 0x1dda24c7, 0xee928277]

-- `it_should_compute_rowround_for_vec0` (src/salsa20.rs:466)
#guard (Salsa20.rowround #v[1, 0, 0, 0, 1, 0, 0, 0, 1, 0, 0, 0, 1, 0, 0, 0]).toList ==
    [0x8008145, 0x80, 0x10200, 0x20500000, 0x20100001, 0x48044, 0x80, 0x10000, 1, 0x2000,
     0x80040000, 0, 1, 0x200, 0x402000, 0x88000100]

-- `it_should_compute_rowround_for_vec1` (src/salsa20.rs:508)
#guard (Salsa20.rowround #v[0x8521bd6, 0x1fe88837, 0xbb2aa576, 0x3aa26365, 0xc54c6a5b, 0x2fc74c2f, 0x6dd39cc3,
       0xda0a64f6, 0x90a2f23d, 0x67f95a6, 0x6b35f61, 0x41e4732e, 0xe859c100, 0xea4d84b7, 0xf619bff,
       0xbc6e965a]).toList ==
    [0xa890d39d, 0x65d71596, 0xe9487daa, 0xc8ca6a86, 0x949d2192, 0x764b7754, 0xe408d9b9, 0x7a41b4d1,
     0x3402e183, 0x3c3af432, 0x50669f96, 0xd89ef0a8, 0x40ede5, 0xb545fbce, 0xd257ed4f, 0x1818882d]

-- `it_should_compute_salsa20_for_vec0` (src/salsa20.rs:556)
#guard check
    [0, 0, 0, 0, 0, 0, 0, 0, 0, 0, 0, 0, 0, 0, 0, 0, 0, 0, 0, 0, 0, 0, 0, 0, 0, 0, 0, 0, 0, 0, 0, 0,
     0, 0, 0, 0, 0, 0, 0, 0, 0, 0, 0, 0, 0, 0, 0, 0, 0, 0, 0, 0, 0, 0, 0, 0, 0, 0, 0, 0, 0, 0, 0, 0]
    10
    [0, 0, 0, 0, 0, 0, 0, 0, 0, 0, 0, 0, 0, 0, 0, 0, 0, 0, 0, 0, 0, 0, 0, 0, 0, 0, 0, 0, 0, 0, 0, 0,
     0, 0, 0, 0, 0, 0, 0, 0, 0, 0, 0, 0, 0, 0, 0, 0, 0, 0, 0, 0, 0, 0, 0, 0, 0, 0, 0, 0, 0, 0, 0, 0]

-- `it_should_compute_salsa20_for_vec1` (src/salsa20.rs:573)
#guard check
    [0xd3, 0x9f, 0xd, 0x73, 0x4c, 0x37, 0x52, 0xb7, 3, 0x75, 0xde, 0x25, 0xbf, 0xbb, 0xea, 0x88,
     0x31, 0xed, 0xb3, 0x30, 1, 0x6a, 0xb2, 0xdb, 0xaf, 0xc7, 0xa6, 0x30, 0x56, 0x10, 0xb3, 0xcf,
     0x1f, 0xf0, 0x20, 0x3f, 0xf, 0x53, 0x5d, 0xa1, 0x74, 0x93, 0x30, 0x71, 0xee, 0x37, 0xcc, 0x24,
     0x4f, 0xc9, 0xeb, 0x4f, 3, 0x51, 0x9c, 0x2f, 0xcb, 0x1a, 0xf4, 0xf3, 0x58, 0x76, 0x68, 0x36]
    10
    [0x6d, 0x2a, 0xb2, 0xa8, 0x9c, 0xf0, 0xf8, 0xee, 0xa8, 0xc4, 0xbe, 0xcb, 0x1a, 0x6e, 0xaa, 0x9a,
     0x1d, 0x1d, 0x96, 0x1a, 0x96, 0x1e, 0xeb, 0xf9, 0xbe, 0xa3, 0xfb, 0x30, 0x45, 0x90, 0x33, 0x39,
     0x76, 0x28, 0x98, 0x9d, 0xb4, 0x39, 0x1b, 0x5e, 0x6b, 0x2a, 0xec, 0x23, 0x1b, 0x6f, 0x72, 0x72,
     0xdb, 0xec, 0xe8, 0x87, 0x6f, 0x9b, 0x6e, 0x12, 0x18, 0xe8, 0x5f, 0x9e, 0xb3, 0x13, 0x30, 0xca]

-- `it_should_compute_salsa20_for_vec2` (src/salsa20.rs:592)
#guard check
    [0x58, 0x76, 0x68, 0x36, 0x4f, 0xc9, 0xeb, 0x4f, 3, 0x51, 0x9c, 0x2f, 0xcb, 0x1a, 0xf4, 0xf3,
     0xbf, 0xbb, 0xea, 0x88, 0xd3, 0x9f, 0xd, 0x73, 0x4c, 0x37, 0x52, 0xb7, 3, 0x75, 0xde, 0x25,
     0x56, 0x10, 0xb3, 0xcf, 0x31, 0xed, 0xb3, 0x30, 1, 0x6a, 0xb2, 0xdb, 0xaf, 0xc7, 0xa6, 0x30,
     0xee, 0x37, 0xcc, 0x24, 0x1f, 0xf0, 0x20, 0x3f, 0xf, 0x53, 0x5d, 0xa1, 0x74, 0x93, 0x30, 0x71]
    10
    [0xb3, 0x13, 0x30, 0xca, 0xdb, 0xec, 0xe8, 0x87, 0x6f, 0x9b, 0x6e, 0x12, 0x18, 0xe8, 0x5f, 0x9e,
     0x1a, 0x6e, 0xaa, 0x9a, 0x6d, 0x2a, 0xb2, 0xa8, 0x9c, 0xf0, 0xf8, 0xee, 0xa8, 0xc4, 0xbe, 0xcb,
     0x45, 0x90, 0x33, 0x39, 0x1d, 0x1d, 0x96, 0x1a, 0x96, 0x1e, 0xeb, 0xf9, 0xbe, 0xa3, 0xfb, 0x30,
     0x1b, 0x6f, 0x72, 0x72, 0x76, 0x28, 0x98, 0x9d, 0xb4, 0x39, 0x1b, 0x5e, 0x6b, 0x2a, 0xec, 0x23]

-- `it_should_compute_salsa20_for_vec3` (src/salsa20.rs:613)
#guard check
    [0x7e, 0x87, 0x9a, 0x21, 0x4f, 0x3e, 0xc9, 0x86, 0x7c, 0xa9, 0x40, 0xe6, 0x41, 0x71, 0x8f, 0x26,
     0xba, 0xee, 0x55, 0x5b, 0x8c, 0x61, 0xc1, 0xb5, 0xd, 0xf8, 0x46, 0x11, 0x6d, 0xcd, 0x3b, 0x1d,
     0xee, 0x24, 0xf3, 0x19, 0xdf, 0x9b, 0x3d, 0x85, 0x14, 0x12, 0x1e, 0x4b, 0x5a, 0xc5, 0xaa, 0x32,
     0x76, 2, 0x1d, 0x29, 9, 0xc7, 0x48, 0x29, 0xed, 0xeb, 0xc6, 0x8d, 0xb8, 0xb8, 0xc2, 0x5e]
    4
    [0xa4, 0x1f, 0x85, 0x9c, 0x66, 8, 0xcc, 0x99, 0x3b, 0x81, 0xca, 0xcb, 2, 0xc, 0xef, 5, 4, 0x4b,
     0x21, 0x81, 0xa2, 0xfd, 0x33, 0x7d, 0xfd, 0x7b, 0x1c, 0x63, 0x96, 0x68, 0x2f, 0x29, 0xb4, 0x39,
     0x31, 0x68, 0xe3, 0xc9, 0xe6, 0xbc, 0xfe, 0x6b, 0xc5, 0xb7, 0xa0, 0x6d, 0x96, 0xba, 0xe4, 0x24,
     0xcc, 0x10, 0x2c, 0x91, 0x74, 0x5c, 0x24, 0xad, 0x67, 0x3d, 0xc7, 0x61, 0x8f, 0x81]

end Verif.Tests.Salsa20
