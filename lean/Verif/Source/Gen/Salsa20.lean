-- Generated by tools/rust2lean.py from /repo/src. Do not edit.
import Verif.Source.Syntax

/-! The constants and functions of `src/salsa20.rs`. -/

namespace Verif.Source.Gen

set_option maxRecDepth 8192

/-- src/salsa20.rs:9-9
```
pub const BLOCK_SIZE: usize = 64;
``` -/
def const_salsa20_BLOCK_SIZE : Expr :=
  .int .usize 64

/-- src/salsa20.rs:12-14
```
fn rotl(n: u32, s: u8) -> u32 {
    (n << s) | (n >> (32 - s))
}
``` -/
def fn_salsa20_rotl : FnDef where
  params := [(.n, .val), (.s, .val)]
  body :=
    .block []
      (.bin .or (.bin .shl (.var .n) (.var .s)) (.bin .shr (.var .n) (.bin .sub (.int .u8 32) (.var .s))))

/-- src/salsa20.rs:16-29
```
fn quarterround(y: &[u32], z: &mut [u32]) {
    z[1] = y[1] ^ rotl(wrapping_sum!(y[0], y[3]), 7);
    z[2] = y[2] ^ rotl(wrapping_sum!(z[1], y[0]), 9);
    z[3] = y[3] ^ rotl(wrapping_sum!(z[2], z[1]), 13);
    z[0] = y[0] ^ rotl(wrapping_sum!(z[3], z[2]), 18);
}
``` -/
def fn_salsa20_quarterround : FnDef where
  params := [(.y, .val), (.z, .mutRef)]
  body :=
    .block
      [.assign (.index (.var .z) (.int .usize 1))
         (.bin .xor (.index (.var .y) (.int .usize 1))
            (.call .salsa20_rotl
               [.block
                  [.let (.var .acc) (.index (.var .y) (.int .usize 0)),
                   .assign (.var .acc) (.prim .wrappingAdd [.var .acc, .index (.var .y) (.int .usize 3)])]
                  (.var .acc),
                .int .u8 7])),
       .assign (.index (.var .z) (.int .usize 2))
         (.bin .xor (.index (.var .y) (.int .usize 2))
            (.call .salsa20_rotl
               [.block
                  [.let (.var .acc) (.index (.var .z) (.int .usize 1)),
                   .assign (.var .acc) (.prim .wrappingAdd [.var .acc, .index (.var .y) (.int .usize 0)])]
                  (.var .acc),
                .int .u8 9])),
       .assign (.index (.var .z) (.int .usize 3))
         (.bin .xor (.index (.var .y) (.int .usize 3))
            (.call .salsa20_rotl
               [.block
                  [.let (.var .acc) (.index (.var .z) (.int .usize 2)),
                   .assign (.var .acc) (.prim .wrappingAdd [.var .acc, .index (.var .z) (.int .usize 1)])]
                  (.var .acc),
                .int .u8 13])),
       .assign (.index (.var .z) (.int .usize 0))
         (.bin .xor (.index (.var .y) (.int .usize 0))
            (.call .salsa20_rotl
               [.block
                  [.let (.var .acc) (.index (.var .z) (.int .usize 3)),
                   .assign (.var .acc) (.prim .wrappingAdd [.var .acc, .index (.var .z) (.int .usize 2)])]
                  (.var .acc),
                .int .u8 18]))]
      .unit

/-- src/salsa20.rs:31-71
```
fn rowround(y: &[u32], z: &mut [u32]) {
    let s0: [u32; 4] = [y[0], y[1], y[2], y[3]];
    let s1: [u32; 4] = [y[5], y[6], y[7], y[4]];
    let s2: [u32; 4] = [y[10], y[11], y[8], y[9]];
    let s3: [u32; 4] = [y[15], y[12], y[13], y[14]];
    let mut t: [u32; 4] = [0; 4];
    quarterround(&s0, &mut t);
    z[0] = t[0];
    z[1] = t[1];
    z[2] = t[2];
    z[3] = t[3];
    quarterround(&s1, &mut t);
    z[5] = t[0];
    z[6] = t[1];
    z[7] = t[2];
    z[4] = t[3];
    quarterround(&s2, &mut t);
    z[10] = t[0];
    z[11] = t[1];
    z[8] = t[2];
    z[9] = t[3];
    quarterround(&s3, &mut t);
    z[15] = t[0];
    z[12] = t[1];
    z[13] = t[2];
    z[14] = t[3];
}
``` -/
def fn_salsa20_rowround : FnDef where
  params := [(.y, .val), (.z, .mutRef)]
  body :=
    .block
      [.let (.var .s0)
         (.array
            [.index (.var .y) (.int .usize 0),
             .index (.var .y) (.int .usize 1),
             .index (.var .y) (.int .usize 2),
             .index (.var .y) (.int .usize 3)]),
       .let (.var .s1)
         (.array
            [.index (.var .y) (.int .usize 5),
             .index (.var .y) (.int .usize 6),
             .index (.var .y) (.int .usize 7),
             .index (.var .y) (.int .usize 4)]),
       .let (.var .s2)
         (.array
            [.index (.var .y) (.int .usize 10),
             .index (.var .y) (.int .usize 11),
             .index (.var .y) (.int .usize 8),
             .index (.var .y) (.int .usize 9)]),
       .let (.var .s3)
         (.array
            [.index (.var .y) (.int .usize 15),
             .index (.var .y) (.int .usize 12),
             .index (.var .y) (.int .usize 13),
             .index (.var .y) (.int .usize 14)]),
       .let (.var .t) (.repeat (.int .u32 0) (.int .usize 4)),
       .call .salsa20_quarterround [.var .s0, .var .t],
       .assign (.index (.var .z) (.int .usize 0)) (.index (.var .t) (.int .usize 0)),
       .assign (.index (.var .z) (.int .usize 1)) (.index (.var .t) (.int .usize 1)),
       .assign (.index (.var .z) (.int .usize 2)) (.index (.var .t) (.int .usize 2)),
       .assign (.index (.var .z) (.int .usize 3)) (.index (.var .t) (.int .usize 3)),
       .call .salsa20_quarterround [.var .s1, .var .t],
       .assign (.index (.var .z) (.int .usize 5)) (.index (.var .t) (.int .usize 0)),
       .assign (.index (.var .z) (.int .usize 6)) (.index (.var .t) (.int .usize 1)),
       .assign (.index (.var .z) (.int .usize 7)) (.index (.var .t) (.int .usize 2)),
       .assign (.index (.var .z) (.int .usize 4)) (.index (.var .t) (.int .usize 3)),
       .call .salsa20_quarterround [.var .s2, .var .t],
       .assign (.index (.var .z) (.int .usize 10)) (.index (.var .t) (.int .usize 0)),
       .assign (.index (.var .z) (.int .usize 11)) (.index (.var .t) (.int .usize 1)),
       .assign (.index (.var .z) (.int .usize 8)) (.index (.var .t) (.int .usize 2)),
       .assign (.index (.var .z) (.int .usize 9)) (.index (.var .t) (.int .usize 3)),
       .call .salsa20_quarterround [.var .s3, .var .t],
       .assign (.index (.var .z) (.int .usize 15)) (.index (.var .t) (.int .usize 0)),
       .assign (.index (.var .z) (.int .usize 12)) (.index (.var .t) (.int .usize 1)),
       .assign (.index (.var .z) (.int .usize 13)) (.index (.var .t) (.int .usize 2)),
       .assign (.index (.var .z) (.int .usize 14)) (.index (.var .t) (.int .usize 3))]
      .unit

/-- src/salsa20.rs:73-113
```
fn columnround(x: &[u32], y: &mut [u32]) {
    let s0: [u32; 4] = [x[0], x[4], x[8], x[12]];
    let s1: [u32; 4] = [x[5], x[9], x[13], x[1]];
    let s2: [u32; 4] = [x[10], x[14], x[2], x[6]];
    let s3: [u32; 4] = [x[15], x[3], x[7], x[11]];
    let mut t: [u32; 4] = [0; 4];
    quarterround(&s0, &mut t);
    y[0] = t[0];
    y[4] = t[1];
    y[8] = t[2];
    y[12] = t[3];
    quarterround(&s1, &mut t);
    y[5] = t[0];
    y[9] = t[1];
    y[13] = t[2];
    y[1] = t[3];
    quarterround(&s2, &mut t);
    y[10] = t[0];
    y[14] = t[1];
    y[2] = t[2];
    y[6] = t[3];
    quarterround(&s3, &mut t);
    y[15] = t[0];
    y[3] = t[1];
    y[7] = t[2];
    y[11] = t[3];
}
``` -/
def fn_salsa20_columnround : FnDef where
  params := [(.x, .val), (.y, .mutRef)]
  body :=
    .block
      [.let (.var .s0)
         (.array
            [.index (.var .x) (.int .usize 0),
             .index (.var .x) (.int .usize 4),
             .index (.var .x) (.int .usize 8),
             .index (.var .x) (.int .usize 12)]),
       .let (.var .s1)
         (.array
            [.index (.var .x) (.int .usize 5),
             .index (.var .x) (.int .usize 9),
             .index (.var .x) (.int .usize 13),
             .index (.var .x) (.int .usize 1)]),
       .let (.var .s2)
         (.array
            [.index (.var .x) (.int .usize 10),
             .index (.var .x) (.int .usize 14),
             .index (.var .x) (.int .usize 2),
             .index (.var .x) (.int .usize 6)]),
       .let (.var .s3)
         (.array
            [.index (.var .x) (.int .usize 15),
             .index (.var .x) (.int .usize 3),
             .index (.var .x) (.int .usize 7),
             .index (.var .x) (.int .usize 11)]),
       .let (.var .t) (.repeat (.int .u32 0) (.int .usize 4)),
       .call .salsa20_quarterround [.var .s0, .var .t],
       .assign (.index (.var .y) (.int .usize 0)) (.index (.var .t) (.int .usize 0)),
       .assign (.index (.var .y) (.int .usize 4)) (.index (.var .t) (.int .usize 1)),
       .assign (.index (.var .y) (.int .usize 8)) (.index (.var .t) (.int .usize 2)),
       .assign (.index (.var .y) (.int .usize 12)) (.index (.var .t) (.int .usize 3)),
       .call .salsa20_quarterround [.var .s1, .var .t],
       .assign (.index (.var .y) (.int .usize 5)) (.index (.var .t) (.int .usize 0)),
       .assign (.index (.var .y) (.int .usize 9)) (.index (.var .t) (.int .usize 1)),
       .assign (.index (.var .y) (.int .usize 13)) (.index (.var .t) (.int .usize 2)),
       .assign (.index (.var .y) (.int .usize 1)) (.index (.var .t) (.int .usize 3)),
       .call .salsa20_quarterround [.var .s2, .var .t],
       .assign (.index (.var .y) (.int .usize 10)) (.index (.var .t) (.int .usize 0)),
       .assign (.index (.var .y) (.int .usize 14)) (.index (.var .t) (.int .usize 1)),
       .assign (.index (.var .y) (.int .usize 2)) (.index (.var .t) (.int .usize 2)),
       .assign (.index (.var .y) (.int .usize 6)) (.index (.var .t) (.int .usize 3)),
       .call .salsa20_quarterround [.var .s3, .var .t],
       .assign (.index (.var .y) (.int .usize 15)) (.index (.var .t) (.int .usize 0)),
       .assign (.index (.var .y) (.int .usize 3)) (.index (.var .t) (.int .usize 1)),
       .assign (.index (.var .y) (.int .usize 7)) (.index (.var .t) (.int .usize 2)),
       .assign (.index (.var .y) (.int .usize 11)) (.index (.var .t) (.int .usize 3))]
      .unit

/-- src/salsa20.rs:115-123
```
fn doubleround(x: &[u32], y: &mut [u32]) {
    let mut t: [u32; 16] = [0; 16];
    columnround(x, &mut t);
    rowround(&t, y);
}
``` -/
def fn_salsa20_doubleround : FnDef where
  params := [(.x, .val), (.y, .mutRef)]
  body :=
    .block
      [.let (.var .t) (.repeat (.int .u32 0) (.int .usize 16)),
       .call .salsa20_columnround [.var .x, .var .t],
       .call .salsa20_rowround [.var .t, .var .y]]
      .unit

/-- src/salsa20.rs:125-131
```
fn littleendian(b: &[u8]) -> u32 {
    u32::from(b[0]) | (u32::from(b[1]) << 8) | (u32::from(b[2]) << 16) | (u32::from(b[3]) << 24)
}
``` -/
def fn_salsa20_littleendian : FnDef where
  params := [(.b, .val)]
  body :=
    .block []
      (.bin .or
         (.bin .or
            (.bin .or (.from .u32 (.index (.var .b) (.int .usize 0)))
               (.bin .shl (.from .u32 (.index (.var .b) (.int .usize 1))) (.int .i32 8)))
            (.bin .shl (.from .u32 (.index (.var .b) (.int .usize 2))) (.int .i32 16)))
         (.bin .shl (.from .u32 (.index (.var .b) (.int .usize 3))) (.int .i32 24)))

/-- src/salsa20.rs:133-138
```
fn littleendian_inv(x: u32, y: &mut [u8]) {
    y[0] = x as u8;
    y[1] = (x >> 8) as u8;
    y[2] = (x >> 16) as u8;
    y[3] = (x >> 24) as u8;
}
``` -/
def fn_salsa20_littleendian_inv : FnDef where
  params := [(.x, .val), (.y, .mutRef)]
  body :=
    .block
      [.assign (.index (.var .y) (.int .usize 0)) (.cast (.var .x) .u8),
       .assign (.index (.var .y) (.int .usize 1)) (.cast (.bin .shr (.var .x) (.int .i32 8)) .u8),
       .assign (.index (.var .y) (.int .usize 2)) (.cast (.bin .shr (.var .x) (.int .i32 16)) .u8),
       .assign (.index (.var .y) (.int .usize 3)) (.cast (.bin .shr (.var .x) (.int .i32 24)) .u8)]
      .unit

/-- src/salsa20.rs:164-207
```
pub fn salsa20(input: &[u8], rounds: usize, output: &mut [u8]) {
    let mut x: [u32; 16] = [0; 16];
    for (i, elem) in x.iter_mut().enumerate() {
        let from = i * 4;
        let to = from + 4;
        *elem = littleendian(&input[from..to]);
    }
    let mut z = x;
    for _ in 0..rounds {
        let mut t: [u32; 16] = [0; 16];
        doubleround(&z, &mut t);
        z = t;
    }
    for ((i, &x_elem), &z_elem) in x.iter().enumerate().zip(z.iter()) {
        let from = i * 4;
        let to = from + 4;
        littleendian_inv(wrapping_sum!(x_elem, z_elem), &mut output[from..to]);
    }
}
``` -/
def fn_salsa20_salsa20 : FnDef where
  params := [(.input, .val), (.rounds, .val), (.output, .mutRef)]
  body :=
    .block
      [.let (.var .x) (.repeat (.int .u32 0) (.int .usize 16)),
       .forMutEnum .i .elem (.var .x)
         (.block
            [.let (.var .«from») (.bin .mul (.var .i) (.int .usize 4)),
             .let (.var .to) (.bin .add (.var .«from») (.int .usize 4)),
             .assign (.var .elem) (.call .salsa20_littleendian [.slice (.var .input) (.var .«from») (.var .to)])]
            .unit),
       .let (.var .z) (.var .x),
       .for .wild (.range (.int .usize 0) (.var .rounds))
         (.block
            [.let (.var .t) (.repeat (.int .u32 0) (.int .usize 16)),
             .call .salsa20_doubleround [.var .z, .var .t],
             .assign (.var .z) (.var .t)]
            .unit)]
      (.for (.tup [(.tup [(.var .i), (.var .x_elem)]), (.var .z_elem)])
         (.prim .zip [.prim .enumerate [.var .x], .var .z])
         (.block
            [.let (.var .«from») (.bin .mul (.var .i) (.int .usize 4)),
             .let (.var .to) (.bin .add (.var .«from») (.int .usize 4)),
             .call .salsa20_littleendian_inv
               [.block
                  [.let (.var .acc) (.var .x_elem),
                   .assign (.var .acc) (.prim .wrappingAdd [.var .acc, .var .z_elem])]
                  (.var .acc),
                .slice (.var .output) (.var .«from») (.var .to)]]
            .unit))

end Verif.Source.Gen
