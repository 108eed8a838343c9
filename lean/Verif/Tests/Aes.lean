import Verif.Model.Aes
import Verif.Model.Common

/-! The unit tests of `src/aes.rs` run on the model.

These are tests of the faithfulness of the model, not proofs: `#guard` evaluates with the Lean
interpreter, and no theorem depends on this file. Generated from the Rust test functions. -/

namespace Verif.Tests.Aes

/-- The tests run on a 64-bit target in a debug build, as `cargo test` does. -/
def T : Target := ⟨.w64, true⟩

/-- `TEST_BLOCK` (the tests of src/aes.rs). -/
def TEST_BLOCK : Aes.Block :=
  #v[#v[0x37, 0xd7, 0xa0, 0x2d], #v[0x8a, 0x65, 0xc1, 0x96], #v[0xda, 0xee, 1, 0x99], #v[0xb9, 0x9e, 0x55, 0x65]]

/-- `hex_to_vec` of a string literal. -/
def hex (s : String) : List U8 :=
  match hex_to_vec (s.toUTF8.toList.map fun b => b.toBitVec) with
  | .ok v => v
  | .error _ => []

/-- `hex_to_block` (the test helper of src/aes.rs). -/
def hexBlock (s : String) : Vector U8 16 := Vector.ofFn fun i => (hex s).getD i.val 0

/-- `check_cipher_vector` (the test helper of src/aes.rs). -/
def check_cipher_vector (key input output : String) : Bool :=
  match Aes.AES.new.init T (hex key) with
  | .ok (aes, .ok ()) =>
    (match aes.encrypt (hexBlock input) with
      | .ok (.ok c) => c == hexBlock output
      | _ => false) &&
    (match aes.decrypt (hexBlock output) with
      | .ok (.ok c) => c == hexBlock input
      | _ => false)
  | _ => false

-- `it_should_multiply_in_field` (src/aes.rs:424)
#guard Aes.mul 1 2 == 2

-- `it_should_multiply_in_field` (src/aes.rs:424)
#guard Aes.mul 1 3 == 3

-- `it_should_multiply_in_field` (src/aes.rs:424)
#guard Aes.mul 0x57 0x02 == 0xae

-- `it_should_multiply_in_field` (src/aes.rs:424)
#guard Aes.mul 0x57 0x04 == 0x47

-- `it_should_multiply_in_field` (src/aes.rs:424)
#guard Aes.mul 0x57 0x08 == 0x8e

-- `it_should_multiply_in_field` (src/aes.rs:424)
#guard Aes.mul 0x57 0x10 == 0x07

-- `it_should_multiply_in_field` (src/aes.rs:424)
#guard Aes.mul 0x57 0x13 == 0xfe

-- `it_should_inverse_sub_bytes` (src/aes.rs:436)
#guard (match Aes.sub_bytes Aes.encLookup TEST_BLOCK >>= Aes.sub_bytes Aes.decLookup with
  | .ok s => s == TEST_BLOCK
  | .error _ => false)

-- `it_should_inverse_mix_columns` (src/aes.rs:444)
#guard Aes.mix_columns Aes.decMixColumn (Aes.mix_columns Aes.encMixColumn TEST_BLOCK) == TEST_BLOCK

-- `it_should_inverse_shift_rows` (src/aes.rs:452)
#guard Aes.decShiftRows (Aes.encShiftRows TEST_BLOCK) == TEST_BLOCK

-- `it_should_expand_128bit_key` (src/aes.rs:458)
#guard (match Aes.expand_key T
    [0x2b, 0x7e, 0x15, 0x16, 0x28, 0xae, 0xd2, 0xa6, 0xab, 0xf7, 0x15, 0x88, 9, 0xcf, 0x4f, 0x3c] 10 with
  | .ok ks => ks == [0x2b7e1516, 0x28aed2a6, 0xabf71588, 0x9cf4f3c, 0xa0fafe17, 0x88542cb1, 0x23a33939,
       0x2a6c7605, 0xf2c295f2, 0x7a96b943, 0x5935807a, 0x7359f67f, 0x3d80477d, 0x4716fe3e,
       0x1e237e44, 0x6d7a883b, 0xef44a541, 0xa8525b7f, 0xb671253b, 0xdb0bad00, 0xd4d1c6f8,
       0x7c839d87, 0xcaf2b8bc, 0x11f915bc, 0x6d88a37a, 0x110b3efd, 0xdbf98641, 0xca0093fd,
       0x4e54f70e, 0x5f5fc9f3, 0x84a64fb2, 0x4ea6dc4f, 0xead27321, 0xb58dbad2, 0x312bf560,
       0x7f8d292f, 0xac7766f3, 0x19fadc21, 0x28d12941, 0x575c006e, 0xd014f9a8, 0xc9ee2589,
       0xe13f0cc8, 0xb6630ca6]
  | .error _ => false)

-- `it_should_expand_192bit_key` (src/aes.rs:517)
#guard (match Aes.expand_key T
    [0x8e, 0x73, 0xb0, 0xf7, 0xda, 0xe, 0x64, 0x52, 0xc8, 0x10, 0xf3, 0x2b, 0x80, 0x90, 0x79, 0xe5,
     0x62, 0xf8, 0xea, 0xd2, 0x52, 0x2c, 0x6b, 0x7b] 12 with
  | .ok ks => ks == [0x8e73b0f7, 0xda0e6452, 0xc810f32b, 0x809079e5, 0x62f8ead2, 0x522c6b7b, 0xfe0c91f7,
       0x2402f5a5, 0xec12068e, 0x6c827f6b, 0xe7a95b9, 0x5c56fec2, 0x4db7b4bd, 0x69b54118,
       0x85a74796, 0xe92538fd, 0xe75fad44, 0xbb095386, 0x485af057, 0x21efb14f, 0xa448f6d9,
       0x4d6dce24, 0xaa326360, 0x113b30e6, 0xa25e7ed5, 0x83b1cf9a, 0x27f93943, 0x6a94f767,
       0xc0a69407, 0xd19da4e1, 0xec1786eb, 0x6fa64971, 0x485f7032, 0x22cb8755, 0xe26d1352,
       0x33f0b7b3, 0x40beeb28, 0x2f18a259, 0x6747d26b, 0x458c553e, 0xa7e1466c, 0x9411f1df,
       0x821f750a, 0xad07d753, 0xca400538, 0x8fcc5006, 0x282d166a, 0xbc3ce7b5, 0xe98ba06f,
       0x448c773c, 0x8ecc7204, 0x1002202]
  | .error _ => false)

-- `it_should_expand_256bit_key` (src/aes.rs:584)
#guard (match Aes.expand_key T
    [0x60, 0x3d, 0xeb, 0x10, 0x15, 0xca, 0x71, 0xbe, 0x2b, 0x73, 0xae, 0xf0, 0x85, 0x7d, 0x77, 0x81,
     0x1f, 0x35, 0x2c, 7, 0x3b, 0x61, 8, 0xd7, 0x2d, 0x98, 0x10, 0xa3, 9, 0x14, 0xdf, 0xf4] 14 with
  | .ok ks => ks == [0x603deb10, 0x15ca71be, 0x2b73aef0, 0x857d7781, 0x1f352c07, 0x3b6108d7, 0x2d9810a3,
       0x914dff4, 0x9ba35411, 0x8e6925af, 0xa51a8b5f, 0x2067fcde, 0xa8b09c1a, 0x93d194cd,
       0xbe49846e, 0xb75d5b9a, 0xd59aecb8, 0x5bf3c917, 0xfee94248, 0xde8ebe96, 0xb5a9328a,
       0x2678a647, 0x98312229, 0x2f6c79b3, 0x812c81ad, 0xdadf48ba, 0x24360af2, 0xfab8b464,
       0x98c5bfc9, 0xbebd198e, 0x268c3ba7, 0x9e04214, 0x68007bac, 0xb2df3316, 0x96e939e4,
       0x6c518d80, 0xc814e204, 0x76a9fb8a, 0x5025c02d, 0x59c58239, 0xde136967, 0x6ccc5a71,
       0xfa256395, 0x9674ee15, 0x5886ca5d, 0x2e2f31d7, 0x7e0af1fa, 0x27cf73c3, 0x749c47ab,
       0x18501dda, 0xe2757e4f, 0x7401905a, 0xcafaaae3, 0xe4d59b34, 0x9adf6ace, 0xbd10190d,
       0xfe4890d1, 0xe6188d0b, 0x46df344, 0x706c631e]
  | .error _ => false)

-- `it_should_encrypt_first_test_from_the_spec` (src/aes.rs:660), encryption checked there, decryption too here
#guard check_cipher_vector
    "2b7e151628aed2a6abf7158809cf4f3c"
    "3243f6a8885a308d313198a2e0370734"
    "3925841d02dc09fbdc118597196a0b32"

-- `it_should_encrypt_test_vector_0` (src/aes.rs:712)
#guard check_cipher_vector
    "000102030405060708090a0b0c0d0e0f"
    "00112233445566778899aabbccddeeff"
    "69c4e0d86a7b0430d8cdb78070b4c55a"

-- `it_should_encrypt_test_vector_1` (src/aes.rs:721)
#guard check_cipher_vector
    "000102030405060708090a0b0c0d0e0f1011121314151617"
    "00112233445566778899aabbccddeeff"
    "dda97ca4864cdfe06eaf70a0ec0d7191"

-- `it_should_encrypt_test_vector_2` (src/aes.rs:730)
#guard check_cipher_vector
    "000102030405060708090a0b0c0d0e0f101112131415161718191a1b1c1d1e1f"
    "00112233445566778899aabbccddeeff"
    "8ea2b7ca516745bfeafc49904b496089"

end Verif.Tests.Aes
