import Verif.Source.Api
import Verif.Source.Refine.AesCbc
import Verif.Model.Common

/-! The unit tests of the crate run on its text, by the interpreter of `Source/Semantics.lean`.

These are tests of the translator and of the interpreter, not proofs: `#guard` evaluates with the Lean interpreter, and no
theorem depends on this file. The vectors are those of the Rust test functions. -/

namespace Verif.Tests.Source
open Verif.Source

/-- The tests run on a 64-bit target in a debug build, as `cargo test` does. -/
def T : Target := ⟨.w64, true⟩

/-- `hex_to_vec` of a string literal. -/
def hex (s : String) : List U8 :=
  match hex_to_vec (s.toUTF8.toList.map fun b => b.toBitVec) with
  | .ok v => v
  | .error _ => []

def lastIs (r : R (List Val)) (expected : Val) : Bool :=
  match r with
  | .ok vs => vs.getLast? == some expected
  | .error _ => false

/-- The bytes of the results `Ok(v)`, joined; none if there is another result. -/
def joined : List Val → Option (List Val)
  | [] => some []
  | .enum .Ok [.seq xs] :: rest => (joined rest).map (xs ++ ·)
  | .enum .Ok [.unit] :: rest => joined rest
  | _ => none

def joinedIs (r : R (List Val)) (expected : List U8) : Bool :=
  match r with
  | .ok vs => (joined vs).map Val.seq == some (bytes expected)
  | .error _ => false

namespace Sha256

def check (inputs : List (List U8)) (expected : List U8) : Bool :=
  lastIs (session T 65 8 (.sha256_SHA256_new, [])
    (inputs.map (fun c => (.sha256_SHA256_update, [bytes c])) ++ [(.sha256_SHA256_digest, [])])) (bytes expected)

-- `it_should_compute_digest_for_abc` (src/sha256.rs:395)
#guard check
    [[0x61, 0x62, 0x63]]
    [0xba, 0x78, 0x16, 0xbf, 0x8f, 1, 0xcf, 0xea, 0x41, 0x41, 0x40, 0xde, 0x5d, 0xae, 0x22, 0x23,
     0xb0, 3, 0x61, 0xa3, 0x96, 0x17, 0x7a, 0x9c, 0xb4, 0x10, 0xff, 0x61, 0xf2, 0, 0x15, 0xad]

-- `it_should_compute_digest_for_a_b_c` (src/sha256.rs:407)
#guard check
    [[0x61],
     [0x62],
     [0x63]]
    [0xba, 0x78, 0x16, 0xbf, 0x8f, 1, 0xcf, 0xea, 0x41, 0x41, 0x40, 0xde, 0x5d, 0xae, 0x22, 0x23,
     0xb0, 3, 0x61, 0xa3, 0x96, 0x17, 0x7a, 0x9c, 0xb4, 0x10, 0xff, 0x61, 0xf2, 0, 0x15, 0xad]

-- `it_should_compute_digest_for_long_str` (src/sha256.rs:419)
#guard check
    [[0x61, 0x62, 0x63, 0x64, 0x62, 0x63, 0x64, 0x65, 0x63, 0x64, 0x65, 0x66, 0x64, 0x65, 0x66,
      0x67, 0x65, 0x66, 0x67, 0x68, 0x66, 0x67, 0x68, 0x69, 0x67, 0x68, 0x69, 0x6a, 0x68, 0x69,
      0x6a, 0x6b, 0x69, 0x6a, 0x6b, 0x6c, 0x6a, 0x6b, 0x6c, 0x6d, 0x6b, 0x6c, 0x6d, 0x6e, 0x6c,
      0x6d, 0x6e, 0x6f, 0x6d, 0x6e, 0x6f, 0x70, 0x6e, 0x6f, 0x70, 0x71]]
    [0x24, 0x8d, 0x6a, 0x61, 0xd2, 6, 0x38, 0xb8, 0xe5, 0xc0, 0x26, 0x93, 0xc, 0x3e, 0x60, 0x39,
     0xa3, 0x3c, 0xe4, 0x59, 0x64, 0xff, 0x21, 0x67, 0xf6, 0xec, 0xed, 0xd4, 0x19, 0xdb, 6, 0xc1]

-- `it_should_compute_digest_for_long_chunked_str` (src/sha256.rs:431)
#guard check
    [[0x61, 0x62, 0x63, 0x64, 0x62, 0x63, 0x64, 0x65, 0x63],
     [0x64, 0x65, 0x66, 0x64, 0x65, 0x66, 0x67, 0x65, 0x66, 0x67],
     [0x68, 0x66, 0x67, 0x68, 0x69, 0x67, 0x68, 0x69, 0x6a, 0x68, 0x69],
     [0x6a, 0x6b, 0x69, 0x6a, 0x6b, 0x6c, 0x6a, 0x6b, 0x6c, 0x6d, 0x6b, 0x6c],
     [0x6d, 0x6e, 0x6c, 0x6d, 0x6e, 0x6f, 0x6d, 0x6e, 0x6f, 0x70, 0x6e, 0x6f, 0x70, 0x71]]
    [0x24, 0x8d, 0x6a, 0x61, 0xd2, 6, 0x38, 0xb8, 0xe5, 0xc0, 0x26, 0x93, 0xc, 0x3e, 0x60, 0x39,
     0xa3, 0x3c, 0xe4, 0x59, 0x64, 0xff, 0x21, 0x67, 0xf6, 0xec, 0xed, 0xd4, 0x19, 0xdb, 6, 0xc1]

-- `it_should_compute_digest_for_doubled_chunked_long_str` (src/sha256.rs:449)
#guard check
    [[0x61, 0x62, 0x63, 0x64, 0x62, 0x63, 0x64, 0x65, 0x63, 0x64, 0x65, 0x66, 0x64, 0x65, 0x66,
      0x67, 0x65, 0x66, 0x67, 0x68, 0x66, 0x67, 0x68, 0x69, 0x67, 0x68, 0x69, 0x6a, 0x68, 0x69,
      0x6a, 0x6b, 0x69, 0x6a, 0x6b, 0x6c, 0x6a, 0x6b, 0x6c, 0x6d, 0x6b, 0x6c, 0x6d, 0x6e, 0x6c,
      0x6d, 0x6e, 0x6f, 0x6d, 0x6e, 0x6f, 0x70, 0x6e, 0x6f, 0x70, 0x71],
     [0x61, 0x62, 0x63, 0x64, 0x62, 0x63, 0x64, 0x65, 0x63, 0x64, 0x65, 0x66, 0x64, 0x65, 0x66,
      0x67, 0x65, 0x66, 0x67, 0x68, 0x66, 0x67, 0x68, 0x69, 0x67, 0x68, 0x69, 0x6a, 0x68, 0x69,
      0x6a, 0x6b, 0x69, 0x6a, 0x6b, 0x6c, 0x6a, 0x6b, 0x6c, 0x6d, 0x6b, 0x6c, 0x6d, 0x6e, 0x6c,
      0x6d, 0x6e, 0x6f, 0x6d, 0x6e, 0x6f, 0x70, 0x6e, 0x6f, 0x70, 0x71]]
    [0x59, 0xf1, 9, 0xd9, 0x53, 0x3b, 0x2b, 0x70, 0xe7, 0xc3, 0xb8, 0x14, 0xa2, 0xbd, 0x21, 0x8f,
     0x78, 0xea, 0x5d, 0x37, 0x14, 0x45, 0x5b, 0xc6, 0x79, 0x87, 0xcf, 0xd, 0x66, 0x43, 0x99, 0xcf]

-- `it_should_compute_digest_for_doubled_long_str` (src/sha256.rs:464)
#guard check
    [[0x61, 0x62, 0x63, 0x64, 0x62, 0x63, 0x64, 0x65, 0x63, 0x64, 0x65, 0x66, 0x64, 0x65, 0x66,
      0x67, 0x65, 0x66, 0x67, 0x68, 0x66, 0x67, 0x68, 0x69, 0x67, 0x68, 0x69, 0x6a, 0x68, 0x69,
      0x6a, 0x6b, 0x69, 0x6a, 0x6b, 0x6c, 0x6a, 0x6b, 0x6c, 0x6d, 0x6b, 0x6c, 0x6d, 0x6e, 0x6c,
      0x6d, 0x6e, 0x6f, 0x6d, 0x6e, 0x6f, 0x70, 0x6e, 0x6f, 0x70, 0x71, 0x61, 0x62, 0x63, 0x64,
      0x62, 0x63, 0x64, 0x65, 0x63, 0x64, 0x65, 0x66, 0x64, 0x65, 0x66, 0x67, 0x65, 0x66, 0x67,
      0x68, 0x66, 0x67, 0x68, 0x69, 0x67, 0x68, 0x69, 0x6a, 0x68, 0x69, 0x6a, 0x6b, 0x69, 0x6a,
      0x6b, 0x6c, 0x6a, 0x6b, 0x6c, 0x6d, 0x6b, 0x6c, 0x6d, 0x6e, 0x6c, 0x6d, 0x6e, 0x6f, 0x6d,
      0x6e, 0x6f, 0x70, 0x6e, 0x6f, 0x70, 0x71]]
    [0x59, 0xf1, 9, 0xd9, 0x53, 0x3b, 0x2b, 0x70, 0xe7, 0xc3, 0xb8, 0x14, 0xa2, 0xbd, 0x21, 0x8f,
     0x78, 0xea, 0x5d, 0x37, 0x14, 0x45, 0x5b, 0xc6, 0x79, 0x87, 0xcf, 0xd, 0x66, 0x43, 0x99, 0xcf]

end Sha256

namespace Hmac

def check (key : List U8) (inputs : List (List U8)) (expected : List U8) : Bool :=
  lastIs (session T 65 8 (.hmac_HMac_new, [bytes key])
    (inputs.map (fun c => (.hmac_HMac_update, [bytes c])) ++ [(.hmac_HMac_digest, [])])) (bytes expected)

-- `it_should_compute_digest_for_vec0` (src/hmac.rs:135)
#guard check
    [0xb, 0xb, 0xb, 0xb, 0xb, 0xb, 0xb, 0xb, 0xb, 0xb, 0xb, 0xb, 0xb, 0xb, 0xb, 0xb, 0xb, 0xb, 0xb,
     0xb]
    [[0x48, 0x69, 0x20, 0x54, 0x68, 0x65, 0x72, 0x65]]
    [0xb0, 0x34, 0x4c, 0x61, 0xd8, 0xdb, 0x38, 0x53, 0x5c, 0xa8, 0xaf, 0xce, 0xaf, 0xb, 0xf1, 0x2b,
     0x88, 0x1d, 0xc2, 0, 0xc9, 0x83, 0x3d, 0xa7, 0x26, 0xe9, 0x37, 0x6c, 0x2e, 0x32, 0xcf, 0xf7]

-- `it_should_compute_digest_for_vec1` (src/hmac.rs:148)
#guard check
    [0x4a, 0x65, 0x66, 0x65]
    [[0x77, 0x68, 0x61, 0x74, 0x20, 0x64, 0x6f, 0x20, 0x79, 0x61, 0x20, 0x77, 0x61, 0x6e, 0x74, 0x20],
     [0x66, 0x6f, 0x72, 0x20, 0x6e, 0x6f, 0x74, 0x68, 0x69, 0x6e, 0x67, 0x3f]]
    [0x5b, 0xdc, 0xc1, 0x46, 0xbf, 0x60, 0x75, 0x4e, 0x6a, 4, 0x24, 0x26, 8, 0x95, 0x75, 0xc7, 0x5a,
     0, 0x3f, 8, 0x9d, 0x27, 0x39, 0x83, 0x9d, 0xec, 0x58, 0xb9, 0x64, 0xec, 0x38, 0x43]

-- `it_should_compute_digest_for_vec2` (src/hmac.rs:161)
#guard check
    [0xaa, 0xaa, 0xaa, 0xaa, 0xaa, 0xaa, 0xaa, 0xaa, 0xaa, 0xaa, 0xaa, 0xaa, 0xaa, 0xaa, 0xaa, 0xaa,
     0xaa, 0xaa, 0xaa, 0xaa]
    [[0xdd, 0xdd, 0xdd, 0xdd, 0xdd, 0xdd, 0xdd, 0xdd, 0xdd, 0xdd, 0xdd, 0xdd, 0xdd, 0xdd, 0xdd, 0xdd],
     [0xdd, 0xdd, 0xdd, 0xdd, 0xdd, 0xdd, 0xdd, 0xdd, 0xdd, 0xdd, 0xdd, 0xdd, 0xdd, 0xdd, 0xdd, 0xdd],
     [0xdd, 0xdd, 0xdd, 0xdd, 0xdd, 0xdd, 0xdd, 0xdd, 0xdd, 0xdd, 0xdd, 0xdd, 0xdd, 0xdd, 0xdd, 0xdd],
     [0xdd, 0xdd]]
    [0x77, 0x3e, 0xa9, 0x1e, 0x36, 0x80, 0xe, 0x46, 0x85, 0x4d, 0xb8, 0xeb, 0xd0, 0x91, 0x81, 0xa7,
     0x29, 0x59, 9, 0x8b, 0x3e, 0xf8, 0xc1, 0x22, 0xd9, 0x63, 0x55, 0x14, 0xce, 0xd5, 0x65, 0xfe]

-- `it_should_compute_digest_for_vec3` (src/hmac.rs:191)
#guard check
    [1, 2, 3, 4, 5, 6, 7, 8, 9, 0xa, 0xb, 0xc, 0xd, 0xe, 0xf, 0x10, 0x11, 0x12, 0x13, 0x14, 0x15,
     0x16, 0x17, 0x18, 0x19]
    [[0xcd, 0xcd, 0xcd, 0xcd, 0xcd, 0xcd, 0xcd, 0xcd, 0xcd, 0xcd, 0xcd, 0xcd, 0xcd, 0xcd, 0xcd, 0xcd],
     [0xcd, 0xcd, 0xcd, 0xcd, 0xcd, 0xcd, 0xcd, 0xcd, 0xcd, 0xcd, 0xcd, 0xcd, 0xcd, 0xcd, 0xcd, 0xcd],
     [0xcd, 0xcd, 0xcd, 0xcd, 0xcd, 0xcd, 0xcd, 0xcd, 0xcd, 0xcd, 0xcd, 0xcd, 0xcd, 0xcd, 0xcd, 0xcd],
     [0xcd, 0xcd]]
    [0x82, 0x55, 0x8a, 0x38, 0x9a, 0x44, 0x3c, 0xe, 0xa4, 0xcc, 0x81, 0x98, 0x99, 0xf2, 8, 0x3a,
     0x85, 0xf0, 0xfa, 0xa3, 0xe5, 0x78, 0xf8, 7, 0x7a, 0x2e, 0x3f, 0xf4, 0x67, 0x29, 0x66, 0x5b]

-- `it_should_compute_digest_for_vec4` (src/hmac.rs:221)
#guard check
    [0xaa, 0xaa, 0xaa, 0xaa, 0xaa, 0xaa, 0xaa, 0xaa, 0xaa, 0xaa, 0xaa, 0xaa, 0xaa, 0xaa, 0xaa, 0xaa,
     0xaa, 0xaa, 0xaa, 0xaa, 0xaa, 0xaa, 0xaa, 0xaa, 0xaa, 0xaa, 0xaa, 0xaa, 0xaa, 0xaa, 0xaa, 0xaa,
     0xaa, 0xaa, 0xaa, 0xaa, 0xaa, 0xaa, 0xaa, 0xaa, 0xaa, 0xaa, 0xaa, 0xaa, 0xaa, 0xaa, 0xaa, 0xaa,
     0xaa, 0xaa, 0xaa, 0xaa, 0xaa, 0xaa, 0xaa, 0xaa, 0xaa, 0xaa, 0xaa, 0xaa, 0xaa, 0xaa, 0xaa, 0xaa,
     0xaa, 0xaa, 0xaa, 0xaa, 0xaa, 0xaa, 0xaa, 0xaa, 0xaa, 0xaa, 0xaa, 0xaa, 0xaa, 0xaa, 0xaa, 0xaa,
     0xaa, 0xaa, 0xaa, 0xaa, 0xaa, 0xaa, 0xaa, 0xaa, 0xaa, 0xaa, 0xaa, 0xaa, 0xaa, 0xaa, 0xaa, 0xaa,
     0xaa, 0xaa, 0xaa, 0xaa, 0xaa, 0xaa, 0xaa, 0xaa, 0xaa, 0xaa, 0xaa, 0xaa, 0xaa, 0xaa, 0xaa, 0xaa,
     0xaa, 0xaa, 0xaa, 0xaa, 0xaa, 0xaa, 0xaa, 0xaa, 0xaa, 0xaa, 0xaa, 0xaa, 0xaa, 0xaa, 0xaa, 0xaa,
     0xaa, 0xaa, 0xaa]
    [[0x54, 0x65, 0x73, 0x74, 0x20, 0x55, 0x73, 0x69, 0x6e, 0x67, 0x20, 0x4c, 0x61, 0x72, 0x67, 0x65],
     [0x72, 0x20, 0x54, 0x68, 0x61, 0x6e, 0x20, 0x42, 0x6c, 0x6f, 0x63, 0x6b, 0x2d, 0x53, 0x69, 0x7a],
     [0x65, 0x20, 0x4b, 0x65, 0x79, 0x20, 0x2d, 0x20, 0x48, 0x61, 0x73, 0x68, 0x20, 0x4b, 0x65, 0x79],
     [0x20, 0x46, 0x69, 0x72, 0x73, 0x74]]
    [0x60, 0xe4, 0x31, 0x59, 0x1e, 0xe0, 0xb6, 0x7f, 0xd, 0x8a, 0x26, 0xaa, 0xcb, 0xf5, 0xb7, 0x7f,
     0x8e, 0xb, 0xc6, 0x21, 0x37, 0x28, 0xc5, 0x14, 5, 0x46, 4, 0xf, 0xe, 0xe3, 0x7f, 0x54]

-- `it_should_compute_digest_for_vec5` (src/hmac.rs:250)
#guard check
    [0xaa, 0xaa, 0xaa, 0xaa, 0xaa, 0xaa, 0xaa, 0xaa, 0xaa, 0xaa, 0xaa, 0xaa, 0xaa, 0xaa, 0xaa, 0xaa,
     0xaa, 0xaa, 0xaa, 0xaa, 0xaa, 0xaa, 0xaa, 0xaa, 0xaa, 0xaa, 0xaa, 0xaa, 0xaa, 0xaa, 0xaa, 0xaa,
     0xaa, 0xaa, 0xaa, 0xaa, 0xaa, 0xaa, 0xaa, 0xaa, 0xaa, 0xaa, 0xaa, 0xaa, 0xaa, 0xaa, 0xaa, 0xaa,
     0xaa, 0xaa, 0xaa, 0xaa, 0xaa, 0xaa, 0xaa, 0xaa, 0xaa, 0xaa, 0xaa, 0xaa, 0xaa, 0xaa, 0xaa, 0xaa,
     0xaa, 0xaa, 0xaa, 0xaa, 0xaa, 0xaa, 0xaa, 0xaa, 0xaa, 0xaa, 0xaa, 0xaa, 0xaa, 0xaa, 0xaa, 0xaa,
     0xaa, 0xaa, 0xaa, 0xaa, 0xaa, 0xaa, 0xaa, 0xaa, 0xaa, 0xaa, 0xaa, 0xaa, 0xaa, 0xaa, 0xaa, 0xaa,
     0xaa, 0xaa, 0xaa, 0xaa, 0xaa, 0xaa, 0xaa, 0xaa, 0xaa, 0xaa, 0xaa, 0xaa, 0xaa, 0xaa, 0xaa, 0xaa,
     0xaa, 0xaa, 0xaa, 0xaa, 0xaa, 0xaa, 0xaa, 0xaa, 0xaa, 0xaa, 0xaa, 0xaa, 0xaa, 0xaa, 0xaa, 0xaa,
     0xaa, 0xaa, 0xaa]
    [[0x54, 0x68, 0x69, 0x73, 0x20, 0x69, 0x73, 0x20, 0x61, 0x20, 0x74, 0x65, 0x73, 0x74, 0x20, 0x75],
     [0x73, 0x69, 0x6e, 0x67, 0x20, 0x61, 0x20, 0x6c, 0x61, 0x72, 0x67, 0x65, 0x72, 0x20, 0x74, 0x68],
     [0x61, 0x6e, 0x20, 0x62, 0x6c, 0x6f, 0x63, 0x6b, 0x2d, 0x73, 0x69, 0x7a, 0x65, 0x20, 0x6b, 0x65],
     [0x79, 0x20, 0x61, 0x6e, 0x64, 0x20, 0x61, 0x20, 0x6c, 0x61, 0x72, 0x67, 0x65, 0x72, 0x20, 0x74],
     [0x68, 0x61, 0x6e, 0x20, 0x62, 0x6c, 0x6f, 0x63, 0x6b, 0x2d, 0x73, 0x69, 0x7a, 0x65, 0x20, 0x64],
     [0x61, 0x74, 0x61, 0x2e, 0x20, 0x54, 0x68, 0x65, 0x20, 0x6b, 0x65, 0x79, 0x20, 0x6e, 0x65, 0x65],
     [0x64, 0x73, 0x20, 0x74, 0x6f, 0x20, 0x62, 0x65, 0x20, 0x68, 0x61, 0x73, 0x68, 0x65, 0x64, 0x20],
     [0x62, 0x65, 0x66, 0x6f, 0x72, 0x65, 0x20, 0x62, 0x65, 0x69, 0x6e, 0x67, 0x20, 0x75, 0x73, 0x65],
     [0x64, 0x20, 0x62, 0x79, 0x20, 0x74, 0x68, 0x65, 0x20, 0x48, 0x4d, 0x41, 0x43, 0x20, 0x61, 0x6c],
     [0x67, 0x6f, 0x72, 0x69, 0x74, 0x68, 0x6d, 0x2e]]
    [0x9b, 9, 0xff, 0xa7, 0x1b, 0x94, 0x2f, 0xcb, 0x27, 0x63, 0x5f, 0xbc, 0xd5, 0xb0, 0xe9, 0x44,
     0xbf, 0xdc, 0x63, 0x64, 0x4f, 7, 0x13, 0x93, 0x8a, 0x7f, 0x51, 0x53, 0x5c, 0x3a, 0x35, 0xe2]

-- `it_should_compute_pbkdf2_stage_properly` (src/hmac.rs:289)
#guard check
    [0x50, 0x61, 0x73, 0x73, 0x77, 0x6f, 0x72, 0x64]
    [[0xc6, 0, 0x40, 0x4e, 0x39, 0xc9, 0xe9, 0x7a, 0x7d, 0x7a, 0x74, 0x5b, 0x32, 0xc3, 0xe7, 0x42,
      0x63, 0x87, 0xb3, 0x65, 0x69, 0x3c, 0x7f, 0x59, 0x30, 0xf, 0xd8, 0xa0, 0x3a, 0xab, 0x4c, 0x6e]]
    [0xbe, 0x97, 0xc8, 0x11, 0x49, 0x75, 0xf, 0x47, 0x65, 0x9a, 0x37, 0xf6, 0x23, 0, 0x43, 0xf5,
     0x79, 0xb5, 0xd8, 0x35, 0xac, 0xdd, 0xfc, 0x8e, 0x70, 0xd7, 0x4a, 0xef, 0x66, 0x95, 0xe1, 0x28]

end Hmac

namespace Pbkdf2

def check (P S : List U8) (c : Nat) (expected : List U8) : Bool :=
  match call T crate 65 8 .pbkdf2_pbkdf2_sha256 [bytes P, bytes S, .usize c, bytes (List.replicate expected.length 0)] with
  | .ok (_, [out]) => out == bytes expected
  | _ => false

#guard check [0x70, 0x61, 0x73, 0x73, 0x77, 0x64] [0x73, 0x61, 0x6c, 0x74] 1
    [0x55, 0xac, 4, 0x6e, 0x56, 0xe3, 8, 0x9f, 0xec, 0x16, 0x91, 0xc2, 0x25, 0x44, 0xb6, 5, 0xf9,
       0x41, 0x85, 0x21, 0x6d, 0xde, 4, 0x65, 0xe6, 0x8b, 0x9d, 0x57, 0xc2, 0xd, 0xac, 0xbc, 0x49,
       0xca, 0x9c, 0xcc, 0xf1, 0x79, 0xb6, 0x45, 0x99, 0x16, 0x64, 0xb3, 0x9d, 0x77, 0xef, 0x31,
       0x7c, 0x71, 0xb8, 0x45, 0xb1, 0xe3, 0xb, 0xd5, 9, 0x11, 0x20, 0x41, 0xd3, 0xa1, 0x97, 0x83]

end Pbkdf2

namespace Salsa20

def check (input : List U8) (rounds : Nat) (expected : List U8) : Bool :=
  match call T crate 65 8 .salsa20_salsa20 [bytes input, .usize rounds, bytes (List.replicate 64 0)] with
  | .ok (_, [out]) => out == bytes expected
  | _ => false

-- `it_should_compute_salsa20_for_vec0` (src/salsa20.rs:556)
#guard check
    [0, 0, 0, 0, 0, 0, 0, 0, 0, 0, 0, 0, 0, 0, 0, 0, 0, 0, 0, 0, 0, 0, 0, 0, 0, 0, 0, 0, 0, 0, 0, 0,
     0, 0, 0, 0, 0, 0, 0, 0, 0, 0, 0, 0, 0, 0, 0, 0, 0, 0, 0, 0, 0, 0, 0, 0, 0, 0, 0, 0, 0, 0, 0, 0]
    10
    [0, 0, 0, 0, 0, 0, 0, 0, 0, 0, 0, 0, 0, 0, 0, 0, 0, 0, 0, 0, 0, 0, 0, 0, 0, 0, 0, 0, 0, 0, 0, 0,
     0, 0, 0, 0, 0, 0, 0, 0, 0, 0, 0, 0, 0, 0, 0, 0, 0, 0, 0, 0, 0, 0, 0, 0, 0, 0, 0, 0, 0, 0, 0, 0]

-- `it_should_compute_salsa20_for_vec1` (src/salsa20.rs:573)
#guard check
    [0xd3, 0x9f, 0xd, 0x73, 0x4c, 0x37, 0x52, 0xb7, 3, 0x75, 0xde, 0x25, 0xbf, 0xbb, 0xea, 0x88,
     0x31, 0xed, 0xb3, 0x30, 1, 0x6a, 0xb2, 0xdb, 0xaf, 0xc7, 0xa6, 0x30, 0x56, 0x10, 0xb3, 0xcf,
     0x1f, 0xf0, 0x20, 0x3f, 0xf, 0x53, 0x5d, 0xa1, 0x74, 0x93, 0x30, 0x71, 0xee, 0x37, 0xcc, 0x24,
     0x4f, 0xc9, 0xeb, 0x4f, 3, 0x51, 0x9c, 0x2f, 0xcb, 0x1a, 0xf4, 0xf3, 0x58, 0x76, 0x68, 0x36]
    10
    [0x6d, 0x2a, 0xb2, 0xa8, 0x9c, 0xf0, 0xf8, 0xee, 0xa8, 0xc4, 0xbe, 0xcb, 0x1a, 0x6e, 0xaa, 0x9a,
     0x1d, 0x1d, 0x96, 0x1a, 0x96, 0x1e, 0xeb, 0xf9, 0xbe, 0xa3, 0xfb, 0x30, 0x45, 0x90, 0x33, 0x39,
     0x76, 0x28, 0x98, 0x9d, 0xb4, 0x39, 0x1b, 0x5e, 0x6b, 0x2a, 0xec, 0x23, 0x1b, 0x6f, 0x72, 0x72,
     0xdb, 0xec, 0xe8, 0x87, 0x6f, 0x9b, 0x6e, 0x12, 0x18, 0xe8, 0x5f, 0x9e, 0xb3, 0x13, 0x30, 0xca]

-- `it_should_compute_salsa20_for_vec2` (src/salsa20.rs:592)
#guard check
    [0x58, 0x76, 0x68, 0x36, 0x4f, 0xc9, 0xeb, 0x4f, 3, 0x51, 0x9c, 0x2f, 0xcb, 0x1a, 0xf4, 0xf3,
     0xbf, 0xbb, 0xea, 0x88, 0xd3, 0x9f, 0xd, 0x73, 0x4c, 0x37, 0x52, 0xb7, 3, 0x75, 0xde, 0x25,
     0x56, 0x10, 0xb3, 0xcf, 0x31, 0xed, 0xb3, 0x30, 1, 0x6a, 0xb2, 0xdb, 0xaf, 0xc7, 0xa6, 0x30,
     0xee, 0x37, 0xcc, 0x24, 0x1f, 0xf0, 0x20, 0x3f, 0xf, 0x53, 0x5d, 0xa1, 0x74, 0x93, 0x30, 0x71]
    10
    [0xb3, 0x13, 0x30, 0xca, 0xdb, 0xec, 0xe8, 0x87, 0x6f, 0x9b, 0x6e, 0x12, 0x18, 0xe8, 0x5f, 0x9e,
     0x1a, 0x6e, 0xaa, 0x9a, 0x6d, 0x2a, 0xb2, 0xa8, 0x9c, 0xf0, 0xf8, 0xee, 0xa8, 0xc4, 0xbe, 0xcb,
     0x45, 0x90, 0x33, 0x39, 0x1d, 0x1d, 0x96, 0x1a, 0x96, 0x1e, 0xeb, 0xf9, 0xbe, 0xa3, 0xfb, 0x30,
     0x1b, 0x6f, 0x72, 0x72, 0x76, 0x28, 0x98, 0x9d, 0xb4, 0x39, 0x1b, 0x5e, 0x6b, 0x2a, 0xec, 0x23]

-- `it_should_compute_salsa20_for_vec3` (src/salsa20.rs:613)
#guard check
    [0x7e, 0x87, 0x9a, 0x21, 0x4f, 0x3e, 0xc9, 0x86, 0x7c, 0xa9, 0x40, 0xe6, 0x41, 0x71, 0x8f, 0x26,
     0xba, 0xee, 0x55, 0x5b, 0x8c, 0x61, 0xc1, 0xb5, 0xd, 0xf8, 0x46, 0x11, 0x6d, 0xcd, 0x3b, 0x1d,
     0xee, 0x24, 0xf3, 0x19, 0xdf, 0x9b, 0x3d, 0x85, 0x14, 0x12, 0x1e, 0x4b, 0x5a, 0xc5, 0xaa, 0x32,
     0x76, 2, 0x1d, 0x29, 9, 0xc7, 0x48, 0x29, 0xed, 0xeb, 0xc6, 0x8d, 0xb8, 0xb8, 0xc2, 0x5e]
    4
    [0xa4, 0x1f, 0x85, 0x9c, 0x66, 8, 0xcc, 0x99, 0x3b, 0x81, 0xca, 0xcb, 2, 0xc, 0xef, 5, 4, 0x4b,
     0x21, 0x81, 0xa2, 0xfd, 0x33, 0x7d, 0xfd, 0x7b, 0x1c, 0x63, 0x96, 0x68, 0x2f, 0x29, 0xb4, 0x39,
     0x31, 0x68, 0xe3, 0xc9, 0xe6, 0xbc, 0xfe, 0x6b, 0xc5, 0xb7, 0xa0, 0x6d, 0x96, 0xba, 0xe4, 0x24,
     0xcc, 0x10, 0x2c, 0x91, 0x74, 0x5c, 0x24, 0xad, 0x67, 0x3d, 0xc7, 0x61, 0x8f, 0x81]

end Salsa20

namespace Scrypt

def check_derive (r n p : Nat) (P S expected : List U8) : Bool :=
  match call T crate 65 8 .scrypt_Scrypt_new [.usize r, .usize n, .usize p] >>= fun (self, _) =>
      call T crate 65 8 .scrypt_Scrypt_derive [self, bytes P, bytes S, bytes (List.replicate expected.length 0)] with
  | .ok (.enum .Ok [.unit], [out]) => out == bytes expected
  | _ => false

-- `it_should_compute_scrypt_for_vec0` (src/scrypt.rs:401)
#guard check_derive 1 16 1
    []
    []
    [0x77, 0xd6, 0x57, 0x62, 0x38, 0x65, 0x7b, 0x20, 0x3b, 0x19, 0xca, 0x42, 0xc1, 0x8a, 4, 0x97,
     0xf1, 0x6b, 0x48, 0x44, 0xe3, 7, 0x4a, 0xe8, 0xdf, 0xdf, 0xfa, 0x3f, 0xed, 0xe2, 0x14, 0x42,
     0xfc, 0xd0, 6, 0x9d, 0xed, 9, 0x48, 0xf8, 0x32, 0x6a, 0x75, 0x3a, 0xf, 0xc8, 0x1f, 0x17, 0xe8,
     0xd3, 0xe0, 0xfb, 0x2e, 0xd, 0x36, 0x28, 0xcf, 0x35, 0xe2, 0xc, 0x38, 0xd1, 0x89, 6]

end Scrypt

namespace Aes

def check_cipher_vector (key input output : String) : Bool :=
  joinedIs (session T 65 8 (.aes_AES_new, [])
    [(.aes_AES_init, [bytes (hex key)]), (.aes_AES_encrypt, [bytes (hex input)]), (.aes_AES_decrypt, [bytes (hex output)])])
    (hex output ++ hex input)

-- `it_should_encrypt_first_test_from_the_spec` (src/aes.rs:660), encryption checked there, decryption too here
#guard check_cipher_vector
    "2b7e151628aed2a6abf7158809cf4f3c"
    "3243f6a8885a308d313198a2e0370734"
    "3925841d02dc09fbdc118597196a0b32"

-- `it_should_encrypt_test_vector_0` (src/aes.rs:712)
#guard check_cipher_vector
    "000102030405060708090a0b0c0d0e0f"
    "00112233445566778899aabbccddeeff"
    "69c4e0d86a7b0430d8cdb78070b4c55a"

-- `it_should_encrypt_test_vector_1` (src/aes.rs:721)
#guard check_cipher_vector
    "000102030405060708090a0b0c0d0e0f1011121314151617"
    "00112233445566778899aabbccddeeff"
    "dda97ca4864cdfe06eaf70a0ec0d7191"

-- `it_should_encrypt_test_vector_2` (src/aes.rs:730)
#guard check_cipher_vector
    "000102030405060708090a0b0c0d0e0f101112131415161718191a1b1c1d1e1f"
    "00112233445566778899aabbccddeeff"
    "8ea2b7ca516745bfeafc49904b496089"

end Aes

namespace AesCbc

def check (key iv cleartext ciphertext : String) : Bool :=
  let text := cleartext.toUTF8.toList.map fun b => b.toBitVec
  joinedIs (session T 65 8 (.aes_cbc_Cipher_new, [bytes (hex iv)])
    [(.aes_cbc_Cipher_init, [bytes (hex key)]), (.aes_cbc_Cipher_write, [bytes text]), (.aes_cbc_Cipher_flush, [])])
    (hex ciphertext) &&
  joinedIs (session T 65 8 (.aes_cbc_Decipher_new, [bytes (hex iv)])
    [(.aes_cbc_Decipher_init, [bytes (hex key)]), (.aes_cbc_Decipher_write, [bytes (hex ciphertext)]),
     (.aes_cbc_Decipher_flush, [])]) text

-- `it_should_not_fail_on_vec_0` (src/aes_cbc.rs:256)
#guard check
    "00000000000000000000000000000000"
    "00000000000000000000000000000000"
    "hello"
    "9834ed518cbc8fbe9af3c6ecb75eb8c0"

-- `it_should_not_fail_on_vec_1` (src/aes_cbc.rs:266)
#guard check
    "69c2a9e62b613060c9797bdce4f6408e"
    "4cb452d678ca946192cdc691b7ab6176"
    "aes-cbc with iv"
    "98ba8e075bcfa7b93abe453ab184dc68"

-- `it_should_not_fail_on_vec_2` (src/aes_cbc.rs:276)
#guard check
    "57e79712f7b7813490b63446e1bec39f"
    "a32fd274f2d5392f1a217aaa37a5a44d"
    "several AES blocks means more xoring"
    "d1aa1d92d6a93c84032ae322102aba62692b2548e92abc9f8d19bb42dd172e84c4102ff8d45889011b87de27f6d91ae4"

end AesCbc

end Verif.Tests.Source
