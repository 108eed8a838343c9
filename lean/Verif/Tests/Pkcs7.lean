import Verif.Model.Pkcs7

/-! The unit tests of `src/pkcs7.rs` run on the model.

These are tests of the faithfulness of the model, not proofs: `#guard` evaluates with the Lean
interpreter, and no theorem depends on this file. Generated from the Rust test functions. -/

namespace Verif.Tests.Pkcs7

/-- The tests run on a 64-bit target in a debug build, as `cargo test` does. -/
def T : Target := ⟨.w64, true⟩

/-- Some `Pad` writes, then a flush: what every call returns. -/
def padRun (bs : Nat) (ws : List (List U8)) : M (List (Option (List U8)) × List U8) := do
  let mut p := Pkcs7.Pad.new bs
  let mut outs := []
  for b in ws do
    let (p', o) ← p.write T b
    p := p'
    outs := outs ++ [o]
  let (_, f) ← p.flush T
  pure (outs, f)

/-- Some `Unpad` writes, then a flush: what every call returns. -/
def unpadRun (bs : Nat) (ws : List (List U8)) :
    M (List (Option (List U8)) × Except Pkcs7.UnpadError (List U8)) := do
  let mut p := Pkcs7.Unpad.new bs
  let mut outs := []
  for b in ws do
    let (p', o) ← p.write T b
    p := p'
    outs := outs ++ [o]
  let (_, f) ← p.flush T
  pure (outs, f)

-- `it_should_apply_padding_to_incomplete_block` (src/pkcs7.rs:154)
#guard (match padRun 4 [[0x31, 0x32, 0x33]] with
  | .ok (outs, f) => outs == [none] && f == [0x31, 0x32, 0x33, 1]
  | _ => false)

-- `it_should_apply_padding_to_second_incomplete_block` (src/pkcs7.rs:162)
#guard (match padRun 4 [[0x31, 0x32, 0x33, 0x34, 0x35, 0x36]] with
  | .ok (outs, f) => outs == [some [0x31, 0x32, 0x33, 0x34]] && f == [0x35, 0x36, 2, 2]
  | _ => false)

-- `it_should_return_padding_block` (src/pkcs7.rs:170)
#guard (match padRun 4 [[0x31, 0x32, 0x33, 0x34]] with
  | .ok (outs, f) => outs == [some [0x31, 0x32, 0x33, 0x34]] && f == [4, 4, 4, 4]
  | _ => false)

-- `it_should_unpad_single_block` (src/pkcs7.rs:178)
#guard (match unpadRun 4 [[0x31, 0x32, 0x33, 1]] with
  | .ok (outs, .ok f) => outs == [none] && f == [0x31, 0x32, 0x33]
  | _ => false)

-- `it_should_unpad_two_blocks` (src/pkcs7.rs:186)
#guard (match unpadRun 4 [[0x31, 0x32, 0x33, 0x34], [0x35, 3, 3, 3]] with
  | .ok (outs, .ok f) => outs == [none, some [0x31, 0x32, 0x33, 0x34]] && f == [0x35]
  | _ => false)

-- `it_should_unpad_full_block` (src/pkcs7.rs:195)
#guard (match unpadRun 4 [[0x31, 0x32, 0x33, 0x34], [4, 4, 4, 4]] with
  | .ok (outs, .ok f) => outs == [none, some [0x31, 0x32, 0x33, 0x34]] && f == []
  | _ => false)

-- `it_should_error_on_unfinished_data` (src/pkcs7.rs:204)
#guard (match unpadRun 4 [[0x31, 0x32, 0x33]] with
  | .ok (outs, .error e) => outs == [none] && (e matches .UnfinishedBlock)
  | _ => false)

-- `it_should_error_on_invalid_padding` (src/pkcs7.rs:215)
#guard (match unpadRun 4 [[0x31, 0x32, 3, 2]] with
  | .ok (outs, .error e) => outs == [none] && (e matches .InvalidPadding)
  | _ => false)

end Verif.Tests.Pkcs7
