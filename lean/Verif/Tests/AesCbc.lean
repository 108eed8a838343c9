import Verif.Model.AesCbc
import Verif.Model.Common

/-! The unit tests of `src/aes_cbc.rs` run on the model.

These are tests of the faithfulness of the model, not proofs: `#guard` evaluates with the Lean
interpreter, and no theorem depends on this file. Generated from the Rust test functions. -/

namespace Verif.Tests.AesCbc

/-- The tests run on a 64-bit target in a debug build, as `cargo test` does. -/
def T : Target := ⟨.w64, true⟩

/-- `hex_to_vec` of a string literal. -/
def hex (s : String) : List U8 :=
  match hex_to_vec (s.toUTF8.toList.map fun b => b.toBitVec) with
  | .ok v => v
  | .error _ => []

/-- `check` (the test helper of src/aes_cbc.rs). -/
def check (key iv cleartext ciphertext : String) : Bool :=
  let ivArr : Vector U8 16 := Vector.ofFn fun i => (hex iv).getD i.val 0
  let text := cleartext.toUTF8.toList.map fun b => b.toBitVec
  (match (do
      let (c, r) ← (AesCbc.Cipher.new ivArr).init T (hex key)
      let (c, w) ← c.write T text
      let (_, f) ← c.flush T
      pure (r, w, f) : M _) with
    | .ok (.ok (), .ok w, .ok f) => w ++ f == hex ciphertext
    | _ => false) &&
  (match (do
      let (c, r) ← (AesCbc.Decipher.new ivArr).init T (hex key)
      let (c, w) ← c.write T (hex ciphertext)
      let (_, f) ← c.flush T
      pure (r, w, f) : M _) with
    | .ok (.ok (), .ok w, .ok f) => w ++ f == text
    | _ => false)

-- `it_should_not_fail_on_vec_0` (src/aes_cbc.rs:256)
#guard check
    "00000000000000000000000000000000"
    "00000000000000000000000000000000"
    "hello"
    "9834ed518cbc8fbe9af3c6ecb75eb8c0"

-- `it_should_not_fail_on_vec_1` (src/aes_cbc.rs:266)
#guard check
    "69c2a9e62b613060c9797bdce4f6408e"
    "4cb452d678ca946192cdc691b7ab6176"
    "aes-cbc with iv"
    "98ba8e075bcfa7b93abe453ab184dc68"

-- `it_should_not_fail_on_vec_2` (src/aes_cbc.rs:276)
#guard check
    "57e79712f7b7813490b63446e1bec39f"
    "a32fd274f2d5392f1a217aaa37a5a44d"
    "several AES blocks means more xoring"
    "d1aa1d92d6a93c84032ae322102aba62692b2548e92abc9f8d19bb42dd172e84c4102ff8d45889011b87de27f6d91ae4"

end Verif.Tests.AesCbc
