import Verif.Text.Front

/-! Checks of the front end of `Verif/Text` on small texts: what it accepts, what it makes of it, and what it rejects. -/

namespace Verif.Tests.Text
open Verif.Text Verif.Source

/-- Two texts say the same functions and constants. -/
def same (a b : List String) : Bool :=
  match translate ["mod sha256;"] [(c!"sha256", a)], translate ["mod sha256;"] [(c!"sha256", b)] with
  | some p, some q => toString (repr p) == toString (repr q)
  | _, _ => false

def rejects (a : List String) : Bool := (translate ["mod sha256;"] [(c!"sha256", a)]).isNone

/-- A function body for `fn ch(x: u32, y: u32, z: u32) -> u32`. -/
def ch (body : String) : List String := ["fn ch(x: u32, y: u32, z: u32) -> u32 {", body, "}"]

-- precedence and associativity
#guard same (ch "x + y << z ^ x & y") (ch "(((x + y) << z) ^ (x & y))")
#guard same (ch "x + y * z") (ch "x + y * z // comment")
#guard match translate ["mod sha256;"] [(c!"sha256", ch "x ^ y & z")] with
  | some ([(.sha256_ch, ⟨_, .block [] (.bin .xor (.var .x) (.bin .and (.var .y) (.var .z)))⟩)], []) => true
  | _ => false
#guard match translate ["mod sha256;"] [(c!"sha256", ch "x - y - z")] with
  | some ([(.sha256_ch, ⟨_, .block [] (.bin .sub (.bin .sub (.var .x) (.var .y)) (.var .z))⟩)], []) => true
  | _ => false
#guard match translate ["mod sha256;"] [(c!"sha256", ch "x << y + z")] with
  | some ([(.sha256_ch, ⟨_, .block [] (.bin .shl (.var .x) (.bin .add (.var .y) (.var .z)))⟩)], []) => true
  | _ => false
#guard match translate ["mod sha256;"] [(c!"sha256", ch "x & y as u32 >> z")] with
  | some ([(.sha256_ch, ⟨_, .block [] (.bin .and (.var .x) (.bin .shr (.cast (.var .y) .u32) (.var .z)))⟩)], []) => true
  | _ => false
-- types of literals: from the other operand, from the result, or `i32`
#guard match translate ["mod sha256;"] [(c!"sha256", ch "if x as u64 == 3 { 0x_f } else { y << 1 }")] with
  | some ([(.sha256_ch, ⟨_, .block [] (.ite (.bin .eq (.cast (.var .x) .u64) (.int .u64 3)) (.block [] (.int .u32 15))
      (.block [] (.bin .shl (.var .y) (.int .i32 1))))⟩)], []) => true
  | _ => false
-- a literal whose type is only known later
#guard match translate ["mod sha256;"] [(c!"sha256", ch "let t = 1; t + x")] with
  | some ([(.sha256_ch, ⟨_, .block [.let (.var .t) (.int .u32 1)] (.bin .add (.var .t) (.var .x))⟩)], []) => true
  | _ => false
-- comments
#guard same (ch "x /* + y */") (ch "x")
#guard rejects (ch "x /* /* nested */ */")
#guard rejects (ch "x /* not closed")
-- items only for tests are left out
#guard same (ch "x" ++ ["#[cfg(test)]", "mod tests {", "    fn ch() { b\"}\\x00\"; '}'; }", "}"]) (ch "x")
#guard rejects (ch "x" ++ ["#[cfg(not(test))]", "const H: [u32; 1] = [0];"])
-- errors of type, unknown names
#guard rejects (ch "x == y")
#guard rejects (ch "w")
#guard rejects (ch "maj(x)")
#guard rejects (ch "x.count_ones()")
-- outside the fragment
#guard rejects (ch "unsafe { x }")
#guard rejects (ch "loop { return x; }")
#guard rejects (ch "let t = &mut x; *t = 1; x")
#guard rejects (ch "x < y < z")
#guard rejects (ch "1u32")
#guard rejects ["static mut S: u32 = 1;"]
#guard rejects ["fn ch(x: u32) -> &mut u32 { x }"]
#guard rejects ["const H: [u32; 1] = [0]; const H: [u32; 1] = [\"a\"];"]
-- a function of another name than those of the crate
#guard rejects ["fn foo() { }"]
-- macros: the arguments are expressions, and their names are not those of the body
def sum (body : String) : List String :=
  ["macro_rules! wrapping_sum { ( $a:expr, $( $x:expr ),* ) => { { let mut acc = $a; $( acc = acc.wrapping_add($x); )* acc } }; }",
    "fn ch(x: u32, y: u32, z: u32) -> u32 {", body, "}"]
#guard same (sum "wrapping_sum!(x ^ y, z)") (ch "{ let mut acc = x ^ y; acc = acc.wrapping_add(z); acc }")
#guard match translate ["mod sha256;"] [(c!"sha256", sum "wrapping_sum!(x | y, z)")] with
  | some ([(.sha256_ch, ⟨_, .block [] (.block [.let (.var .acc) (.bin .or (.var .x) (.var .y)),
      .assign (.var .acc) (.prim .wrappingAdd [.var .acc, .var .z])] (.var .acc))⟩)], []) => true
  | _ => false
#guard rejects (sum "let acc = x; wrapping_sum!(acc, z)")

end Verif.Tests.Text
