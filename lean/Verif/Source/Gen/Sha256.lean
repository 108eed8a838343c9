-- Generated by tools/rust2lean.py from /repo/src. Do not edit.
import Verif.Source.Syntax

/-! The constants and functions of `src/sha256.rs`. -/

namespace Verif.Source.Gen

set_option maxRecDepth 8192

/-- src/sha256.rs:9-9
```
pub const DIGEST_SIZE: usize = 32;
``` -/
def const_sha256_DIGEST_SIZE : Expr :=
  .int .usize 32

/-- src/sha256.rs:12-12
```
pub const BLOCK_SIZE: usize = 64;
``` -/
def const_sha256_BLOCK_SIZE : Expr :=
  .int .usize 64

/-- src/sha256.rs:15-80
```
const K: [u32; 64] = [
    0x428a_2f98,
    0x7137_4491,
    0xb5c0_fbcf,
    0xe9b5_dba5,
    0x3956_c25b,
    0x59f1_11f1,
    0x923f_82a4,
    0xab1c_5ed5,
    0xd807_aa98,
    0x1283_5b01,
    0x2431_85be,
    0x550c_7dc3,
    0x72be_5d74,
    0x80de_b1fe,
    0x9bdc_06a7,
    0xc19b_f174,
    0xe49b_69c1,
    0xefbe_4786,
    0x0fc1_9dc6,
    0x240c_a1cc,
    0x2de9_2c6f,
    0x4a74_84aa,
    0x5cb0_a9dc,
    0x76f9_88da,
    0x983e_5152,
    0xa831_c66d,
    0xb003_27c8,
    0xbf59_7fc7,
    0xc6e0_0bf3,
    0xd5a7_9147,
    0x06ca_6351,
    0x1429_2967,
    0x27b7_0a85,
    0x2e1b_2138,
    0x4d2c_6dfc,
    0x5338_0d13,
    0x650a_7354,
    0x766a_0abb,
    0x81c2_c92e,
    0x9272_2c85,
    0xa2bf_e8a1,
    0xa81a_664b,
    0xc24b_8b70,
    0xc76c_51a3,
    0xd192_e819,
    0xd699_0624,
    0xf40e_3585,
    0x106a_a070,
    0x19a4_c116,
    0x1e37_6c08,
    0x2748_774c,
    0x34b0_bcb5,
    0x391c_0cb3,
    0x4ed8_aa4a,
    0x5b9c_ca4f,
    0x682e_6ff3,
    0x748f_82ee,
    0x78a5_636f,
    0x84c8_7814,
    0x8cc7_0208,
    0x90be_fffa,
    0xa450_6ceb,
    0xbef9_a3f7,
    0xc671_78f2,
];
``` -/
def const_sha256_K : Expr :=
  .array
    [.int .u32 1116352408, .int .u32 1899447441, .int .u32 3049323471, .int .u32 3921009573,
     .int .u32 961987163, .int .u32 1508970993, .int .u32 2453635748, .int .u32 2870763221,
     .int .u32 3624381080, .int .u32 310598401, .int .u32 607225278, .int .u32 1426881987,
     .int .u32 1925078388, .int .u32 2162078206, .int .u32 2614888103, .int .u32 3248222580,
     .int .u32 3835390401, .int .u32 4022224774, .int .u32 264347078, .int .u32 604807628,
     .int .u32 770255983, .int .u32 1249150122, .int .u32 1555081692, .int .u32 1996064986,
     .int .u32 2554220882, .int .u32 2821834349, .int .u32 2952996808, .int .u32 3210313671,
     .int .u32 3336571891, .int .u32 3584528711, .int .u32 113926993, .int .u32 338241895,
     .int .u32 666307205, .int .u32 773529912, .int .u32 1294757372, .int .u32 1396182291,
     .int .u32 1695183700, .int .u32 1986661051, .int .u32 2177026350, .int .u32 2456956037,
     .int .u32 2730485921, .int .u32 2820302411, .int .u32 3259730800, .int .u32 3345764771,
     .int .u32 3516065817, .int .u32 3600352804, .int .u32 4094571909, .int .u32 275423344,
     .int .u32 430227734, .int .u32 506948616, .int .u32 659060556, .int .u32 883997877,
     .int .u32 958139571, .int .u32 1322822218, .int .u32 1537002063, .int .u32 1747873779,
     .int .u32 1955562222, .int .u32 2024104815, .int .u32 2227730452, .int .u32 2361852424,
     .int .u32 2428436474, .int .u32 2756734187, .int .u32 3204031479, .int .u32 3329325298]

/-- src/sha256.rs:82-91
```
const H: [u32; 8] = [
    0x6a09_e667,
    0xbb67_ae85,
    0x3c6e_f372,
    0xa54f_f53a,
    0x510e_527f,
    0x9b05_688c,
    0x1f83_d9ab,
    0x5be0_cd19,
];
``` -/
def const_sha256_H : Expr :=
  .array
    [.int .u32 1779033703, .int .u32 3144134277, .int .u32 1013904242, .int .u32 2773480762,
     .int .u32 1359893119, .int .u32 2600822924, .int .u32 528734635, .int .u32 1541459225]

/-- src/sha256.rs:94-96
```
fn ch(x: u32, y: u32, z: u32) -> u32 {
    (x & y) ^ ((!x) & z)
}
``` -/
def fn_sha256_ch : FnDef where
  params := [(.x, .val), (.y, .val), (.z, .val)]
  body :=
    .block [] (.bin .xor (.bin .and (.var .x) (.var .y)) (.bin .and (.not (.var .x)) (.var .z)))

/-- src/sha256.rs:99-101
```
fn maj(x: u32, y: u32, z: u32) -> u32 {
    (x & y) ^ (x & z) ^ (y & z)
}
``` -/
def fn_sha256_maj : FnDef where
  params := [(.x, .val), (.y, .val), (.z, .val)]
  body :=
    .block []
      (.bin .xor (.bin .xor (.bin .and (.var .x) (.var .y)) (.bin .and (.var .x) (.var .z)))
         (.bin .and (.var .y) (.var .z)))

/-- src/sha256.rs:103-105
```
fn rotr(n: u32, s: u32) -> u32 {
    (n << (32 - s)) | (n >> s)
}
``` -/
def fn_sha256_rotr : FnDef where
  params := [(.n, .val), (.s, .val)]
  body :=
    .block []
      (.bin .or (.bin .shl (.var .n) (.bin .sub (.int .u32 32) (.var .s))) (.bin .shr (.var .n) (.var .s)))

/-- src/sha256.rs:108-110
```
fn bsig0(x: u32) -> u32 {
    rotr(x, 2) ^ rotr(x, 13) ^ rotr(x, 22)
}
``` -/
def fn_sha256_bsig0 : FnDef where
  params := [(.x, .val)]
  body :=
    .block []
      (.bin .xor
         (.bin .xor (.call .sha256_rotr [.var .x, .int .u32 2]) (.call .sha256_rotr [.var .x, .int .u32 13]))
         (.call .sha256_rotr [.var .x, .int .u32 22]))

/-- src/sha256.rs:113-115
```
fn bsig1(x: u32) -> u32 {
    rotr(x, 6) ^ rotr(x, 11) ^ rotr(x, 25)
}
``` -/
def fn_sha256_bsig1 : FnDef where
  params := [(.x, .val)]
  body :=
    .block []
      (.bin .xor
         (.bin .xor (.call .sha256_rotr [.var .x, .int .u32 6]) (.call .sha256_rotr [.var .x, .int .u32 11]))
         (.call .sha256_rotr [.var .x, .int .u32 25]))

/-- src/sha256.rs:118-120
```
fn ssig0(x: u32) -> u32 {
    rotr(x, 7) ^ rotr(x, 18) ^ (x >> 3)
}
``` -/
def fn_sha256_ssig0 : FnDef where
  params := [(.x, .val)]
  body :=
    .block []
      (.bin .xor
         (.bin .xor (.call .sha256_rotr [.var .x, .int .u32 7]) (.call .sha256_rotr [.var .x, .int .u32 18]))
         (.bin .shr (.var .x) (.int .i32 3)))

/-- src/sha256.rs:123-125
```
fn ssig1(x: u32) -> u32 {
    rotr(x, 17) ^ rotr(x, 19) ^ (x >> 10)
}
``` -/
def fn_sha256_ssig1 : FnDef where
  params := [(.x, .val)]
  body :=
    .block []
      (.bin .xor
         (.bin .xor (.call .sha256_rotr [.var .x, .int .u32 17]) (.call .sha256_rotr [.var .x, .int .u32 19]))
         (.bin .shr (.var .x) (.int .i32 10)))

/-- src/sha256.rs:127-136
```
fn fill_block(input: &[u8; BLOCK_SIZE], output: &mut [u32; BLOCK_SIZE / 4]) {
    for i in 0..output.len() {
        let i0 = u32::from(input[i * 4]);
        let i1 = u32::from(input[i * 4 + 1]);
        let i2 = u32::from(input[i * 4 + 2]);
        let i3 = u32::from(input[i * 4 + 3]);
        output[i] = (i0 << 24) | (i1 << 16) | (i2 << 8) | i3;
    }
}
``` -/
def fn_sha256_fill_block : FnDef where
  params := [(.input, .val), (.output, .mutRef)]
  body :=
    .block []
      (.for (.var .i) (.range (.int .usize 0) (.prim .len [.var .output]))
         (.block
            [.let (.var .i0) (.from .u32 (.index (.var .input) (.bin .mul (.var .i) (.int .usize 4)))),
             .let (.var .i1)
               (.from .u32 (.index (.var .input) (.bin .add (.bin .mul (.var .i) (.int .usize 4)) (.int .usize 1)))),
             .let (.var .i2)
               (.from .u32 (.index (.var .input) (.bin .add (.bin .mul (.var .i) (.int .usize 4)) (.int .usize 2)))),
             .let (.var .i3)
               (.from .u32 (.index (.var .input) (.bin .add (.bin .mul (.var .i) (.int .usize 4)) (.int .usize 3)))),
             .assign (.index (.var .output) (.var .i))
               (.bin .or
                  (.bin .or (.bin .or (.bin .shl (.var .i0) (.int .i32 24)) (.bin .shl (.var .i1) (.int .i32 16)))
                     (.bin .shl (.var .i2) (.int .i32 8)))
                  (.var .i3))]
            .unit))

/-- src/sha256.rs:138-147
```
fn write_u64_be(data: &mut [u8], value: u64) {
    data[0] = (value >> 56) as u8;
    data[1] = (value >> 48) as u8;
    data[2] = (value >> 40) as u8;
    data[3] = (value >> 32) as u8;
    data[4] = (value >> 24) as u8;
    data[5] = (value >> 16) as u8;
    data[6] = (value >> 8) as u8;
    data[7] = (value) as u8;
}
``` -/
def fn_sha256_write_u64_be : FnDef where
  params := [(.data, .mutRef), (.value, .val)]
  body :=
    .block
      [.assign (.index (.var .data) (.int .usize 0)) (.cast (.bin .shr (.var .value) (.int .i32 56)) .u8),
       .assign (.index (.var .data) (.int .usize 1)) (.cast (.bin .shr (.var .value) (.int .i32 48)) .u8),
       .assign (.index (.var .data) (.int .usize 2)) (.cast (.bin .shr (.var .value) (.int .i32 40)) .u8),
       .assign (.index (.var .data) (.int .usize 3)) (.cast (.bin .shr (.var .value) (.int .i32 32)) .u8),
       .assign (.index (.var .data) (.int .usize 4)) (.cast (.bin .shr (.var .value) (.int .i32 24)) .u8),
       .assign (.index (.var .data) (.int .usize 5)) (.cast (.bin .shr (.var .value) (.int .i32 16)) .u8),
       .assign (.index (.var .data) (.int .usize 6)) (.cast (.bin .shr (.var .value) (.int .i32 8)) .u8),
       .assign (.index (.var .data) (.int .usize 7)) (.cast (.var .value) .u8)]
      .unit

/-- src/sha256.rs:179-185
```
pub fn new() -> SHA256 {
    SHA256 {
        h: H,
        buffer: [0; BLOCK_SIZE],
        length: 0,
    }
}
``` -/
def fn_sha256_SHA256_new : FnDef where
  params := []
  body :=
    .block []
      (.struct .SHA256 [.h, .buffer, .length]
         [.const .sha256_H, .repeat (.int .u8 0) (.const .sha256_BLOCK_SIZE), .int .usize 0])

/-- src/sha256.rs:187-277
```
fn process_block(self: &mut SHA256, block: &[u32; 16]) {
    let mut w: [u32; 64] = [0; 64];
    let mut a: u32;
    let mut b: u32;
    let mut c: u32;
    let mut d: u32;
    let mut e: u32;
    let mut f: u32;
    let mut g: u32;
    let mut h: u32;
    w[..16].clone_from_slice(&block[..16]);
    for t in 16..64 {
        w[t] = wrapping_sum!(ssig1(w[t - 2]), w[t - 7], ssig0(w[t - 15]), w[t - 16]);
    }
    a = self.h[0];
    b = self.h[1];
    c = self.h[2];
    d = self.h[3];
    e = self.h[4];
    f = self.h[5];
    g = self.h[6];
    h = self.h[7];
    for t in 0..64 {
        let t1 = wrapping_sum!(h, bsig1(e), ch(e, f, g), K[t], w[t]);
        let t2 = wrapping_sum!(bsig0(a), maj(a, b, c));
        h = g;
        g = f;
        f = e;
        e = wrapping_sum!(d, t1);
        d = c;
        c = b;
        b = a;
        a = wrapping_sum!(t1, t2);
    }
    self.h[0] = wrapping_sum!(self.h[0], a);
    self.h[1] = wrapping_sum!(self.h[1], b);
    self.h[2] = wrapping_sum!(self.h[2], c);
    self.h[3] = wrapping_sum!(self.h[3], d);
    self.h[4] = wrapping_sum!(self.h[4], e);
    self.h[5] = wrapping_sum!(self.h[5], f);
    self.h[6] = wrapping_sum!(self.h[6], g);
    self.h[7] = wrapping_sum!(self.h[7], h);
}
``` -/
def fn_sha256_SHA256_process_block : FnDef where
  params := [(.self, .mutRef), (.block, .val)]
  body :=
    .block
      [.let (.var .w) (.repeat (.int .u32 0) (.int .usize 64)),
       .decl .a,
       .decl .b,
       .decl .c,
       .decl .d,
       .decl .e,
       .decl .f,
       .decl .g,
       .decl .h,
       .mutPrim .copyFromSlice (.sliceTo (.var .w) (.int .usize 16))
         [.sliceTo (.var .block) (.int .usize 16)],
       .for (.var .t) (.range (.int .usize 16) (.int .usize 64))
         (.block
            [.assign (.index (.var .w) (.var .t))
               (.block
                  [.let (.var .acc) (.call .sha256_ssig1 [.index (.var .w) (.bin .sub (.var .t) (.int .usize 2))]),
                   .assign (.var .acc)
                     (.prim .wrappingAdd [.var .acc, .index (.var .w) (.bin .sub (.var .t) (.int .usize 7))]),
                   .assign (.var .acc)
                     (.prim .wrappingAdd
                        [.var .acc, .call .sha256_ssig0 [.index (.var .w) (.bin .sub (.var .t) (.int .usize 15))]]),
                   .assign (.var .acc)
                     (.prim .wrappingAdd [.var .acc, .index (.var .w) (.bin .sub (.var .t) (.int .usize 16))])]
                  (.var .acc))]
            .unit),
       .assign (.var .a) (.index (.field (.var .self) .h) (.int .usize 0)),
       .assign (.var .b) (.index (.field (.var .self) .h) (.int .usize 1)),
       .assign (.var .c) (.index (.field (.var .self) .h) (.int .usize 2)),
       .assign (.var .d) (.index (.field (.var .self) .h) (.int .usize 3)),
       .assign (.var .e) (.index (.field (.var .self) .h) (.int .usize 4)),
       .assign (.var .f) (.index (.field (.var .self) .h) (.int .usize 5)),
       .assign (.var .g) (.index (.field (.var .self) .h) (.int .usize 6)),
       .assign (.var .h) (.index (.field (.var .self) .h) (.int .usize 7)),
       .for (.var .t) (.range (.int .usize 0) (.int .usize 64))
         (.block
            [.let (.var .t1)
               (.block
                  [.let (.var .acc) (.var .h),
                   .assign (.var .acc) (.prim .wrappingAdd [.var .acc, .call .sha256_bsig1 [.var .e]]),
                   .assign (.var .acc) (.prim .wrappingAdd [.var .acc, .call .sha256_ch [.var .e, .var .f, .var .g]]),
                   .assign (.var .acc) (.prim .wrappingAdd [.var .acc, .index (.const .sha256_K) (.var .t)]),
                   .assign (.var .acc) (.prim .wrappingAdd [.var .acc, .index (.var .w) (.var .t)])]
                  (.var .acc)),
             .let (.var .t2)
               (.block
                  [.let (.var .acc) (.call .sha256_bsig0 [.var .a]),
                   .assign (.var .acc) (.prim .wrappingAdd [.var .acc, .call .sha256_maj [.var .a, .var .b, .var .c]])]
                  (.var .acc)),
             .assign (.var .h) (.var .g),
             .assign (.var .g) (.var .f),
             .assign (.var .f) (.var .e),
             .assign (.var .e)
               (.block [.let (.var .acc) (.var .d), .assign (.var .acc) (.prim .wrappingAdd [.var .acc, .var .t1])]
                  (.var .acc)),
             .assign (.var .d) (.var .c),
             .assign (.var .c) (.var .b),
             .assign (.var .b) (.var .a),
             .assign (.var .a)
               (.block [.let (.var .acc) (.var .t1), .assign (.var .acc) (.prim .wrappingAdd [.var .acc, .var .t2])]
                  (.var .acc))]
            .unit),
       .assign (.index (.field (.var .self) .h) (.int .usize 0))
         (.block
            [.let (.var .acc) (.index (.field (.var .self) .h) (.int .usize 0)),
             .assign (.var .acc) (.prim .wrappingAdd [.var .acc, .var .a])]
            (.var .acc)),
       .assign (.index (.field (.var .self) .h) (.int .usize 1))
         (.block
            [.let (.var .acc) (.index (.field (.var .self) .h) (.int .usize 1)),
             .assign (.var .acc) (.prim .wrappingAdd [.var .acc, .var .b])]
            (.var .acc)),
       .assign (.index (.field (.var .self) .h) (.int .usize 2))
         (.block
            [.let (.var .acc) (.index (.field (.var .self) .h) (.int .usize 2)),
             .assign (.var .acc) (.prim .wrappingAdd [.var .acc, .var .c])]
            (.var .acc)),
       .assign (.index (.field (.var .self) .h) (.int .usize 3))
         (.block
            [.let (.var .acc) (.index (.field (.var .self) .h) (.int .usize 3)),
             .assign (.var .acc) (.prim .wrappingAdd [.var .acc, .var .d])]
            (.var .acc)),
       .assign (.index (.field (.var .self) .h) (.int .usize 4))
         (.block
            [.let (.var .acc) (.index (.field (.var .self) .h) (.int .usize 4)),
             .assign (.var .acc) (.prim .wrappingAdd [.var .acc, .var .e])]
            (.var .acc)),
       .assign (.index (.field (.var .self) .h) (.int .usize 5))
         (.block
            [.let (.var .acc) (.index (.field (.var .self) .h) (.int .usize 5)),
             .assign (.var .acc) (.prim .wrappingAdd [.var .acc, .var .f])]
            (.var .acc)),
       .assign (.index (.field (.var .self) .h) (.int .usize 6))
         (.block
            [.let (.var .acc) (.index (.field (.var .self) .h) (.int .usize 6)),
             .assign (.var .acc) (.prim .wrappingAdd [.var .acc, .var .g])]
            (.var .acc)),
       .assign (.index (.field (.var .self) .h) (.int .usize 7))
         (.block
            [.let (.var .acc) (.index (.field (.var .self) .h) (.int .usize 7)),
             .assign (.var .acc) (.prim .wrappingAdd [.var .acc, .var .h])]
            (.var .acc))]
      .unit

/-- src/sha256.rs:282-299
```
pub fn update(self: &mut SHA256, data: &[u8]) {
    let mut block: [u32; BLOCK_SIZE / 4] = [0; BLOCK_SIZE / 4];
    for &b in data {
        let off = self.length % BLOCK_SIZE;
        self.buffer[off] = b;
        self.length += 1;
        if self.length % BLOCK_SIZE != 0 {
            continue;
        }
        fill_block(&self.buffer, &mut block);
        self.process_block(&block);
    }
}
``` -/
def fn_sha256_SHA256_update : FnDef where
  params := [(.self, .mutRef), (.data, .val)]
  body :=
    .block
      [.let (.var .block) (.repeat (.int .u32 0) (.bin .div (.const .sha256_BLOCK_SIZE) (.int .usize 4)))]
      (.for (.var .b) (.var .data)
         (.block
            [.let (.var .off) (.bin .rem (.field (.var .self) .length) (.const .sha256_BLOCK_SIZE)),
             .assign (.index (.field (.var .self) .buffer) (.var .off)) (.var .b),
             .assignOp .add (.field (.var .self) .length) (.int .usize 1),
             .ite
               (.bin .ne (.bin .rem (.field (.var .self) .length) (.const .sha256_BLOCK_SIZE)) (.int .usize 0))
               (.block [.continue] .unit)
               .unit,
             .call .sha256_fill_block [.field (.var .self) .buffer, .var .block],
             .call .sha256_SHA256_process_block [.var .self, .var .block]]
            .unit))

/-- src/sha256.rs:304-372
```
pub fn digest(self: &mut SHA256) -> [u8; DIGEST_SIZE] {
    let mut block: [u32; BLOCK_SIZE / 4] = [0; BLOCK_SIZE / 4];
    let mut off = self.length % BLOCK_SIZE;
    for i in off..self.buffer.len() {
        self.buffer[i] = 0;
    }
    let has_overflow = off + 9 > BLOCK_SIZE;
    if has_overflow {
        self.buffer[off] |= 0x80;
        fill_block(&self.buffer, &mut block);
        self.process_block(&block);
        off = 0;
        self.buffer = [0; BLOCK_SIZE];
    }
    let len_off = self.buffer.len() - 8;
    write_u64_be(&mut self.buffer[len_off..], (self.length * 8) as u64);
    if !has_overflow {
        self.buffer[off] |= 0x80;
    }
    fill_block(&self.buffer, &mut block);
    self.process_block(&block);
    let mut out: [u8; DIGEST_SIZE] = [0; DIGEST_SIZE];
    for i in 0..self.h.len() {
        out[i * 4] = (self.h[i] >> 24) as u8;
        out[i * 4 + 1] = (self.h[i] >> 16) as u8;
        out[i * 4 + 2] = (self.h[i] >> 8) as u8;
        out[i * 4 + 3] = (self.h[i]) as u8;
    }
    out
}
``` -/
def fn_sha256_SHA256_digest : FnDef where
  params := [(.self, .mutRef)]
  body :=
    .block
      [.let (.var .block) (.repeat (.int .u32 0) (.bin .div (.const .sha256_BLOCK_SIZE) (.int .usize 4))),
       .let (.var .off) (.bin .rem (.field (.var .self) .length) (.const .sha256_BLOCK_SIZE)),
       .for (.var .i) (.range (.var .off) (.prim .len [.field (.var .self) .buffer]))
         (.block [.assign (.index (.field (.var .self) .buffer) (.var .i)) (.int .u8 0)] .unit),
       .let (.var .has_overflow)
         (.bin .gt (.bin .add (.var .off) (.int .usize 9)) (.const .sha256_BLOCK_SIZE)),
       .ite (.var .has_overflow)
         (.block
            [.assignOp .or (.index (.field (.var .self) .buffer) (.var .off)) (.int .u8 128),
             .call .sha256_fill_block [.field (.var .self) .buffer, .var .block],
             .call .sha256_SHA256_process_block [.var .self, .var .block],
             .assign (.var .off) (.int .usize 0),
             .assign (.field (.var .self) .buffer) (.repeat (.int .u8 0) (.const .sha256_BLOCK_SIZE))]
            .unit)
         .unit,
       .let (.var .len_off) (.bin .sub (.prim .len [.field (.var .self) .buffer]) (.int .usize 8)),
       .call .sha256_write_u64_be
         [.sliceFrom (.field (.var .self) .buffer) (.var .len_off),
          .cast (.bin .mul (.field (.var .self) .length) (.int .usize 8)) .u64],
       .ite (.not (.var .has_overflow))
         (.block [.assignOp .or (.index (.field (.var .self) .buffer) (.var .off)) (.int .u8 128)] .unit)
         .unit,
       .call .sha256_fill_block [.field (.var .self) .buffer, .var .block],
       .call .sha256_SHA256_process_block [.var .self, .var .block],
       .let (.var .out) (.repeat (.int .u8 0) (.const .sha256_DIGEST_SIZE)),
       .for (.var .i) (.range (.int .usize 0) (.prim .len [.field (.var .self) .h]))
         (.block
            [.assign (.index (.var .out) (.bin .mul (.var .i) (.int .usize 4)))
               (.cast (.bin .shr (.index (.field (.var .self) .h) (.var .i)) (.int .i32 24)) .u8),
             .assign (.index (.var .out) (.bin .add (.bin .mul (.var .i) (.int .usize 4)) (.int .usize 1)))
               (.cast (.bin .shr (.index (.field (.var .self) .h) (.var .i)) (.int .i32 16)) .u8),
             .assign (.index (.var .out) (.bin .add (.bin .mul (.var .i) (.int .usize 4)) (.int .usize 2)))
               (.cast (.bin .shr (.index (.field (.var .self) .h) (.var .i)) (.int .i32 8)) .u8),
             .assign (.index (.var .out) (.bin .add (.bin .mul (.var .i) (.int .usize 4)) (.int .usize 3)))
               (.cast (.index (.field (.var .self) .h) (.var .i)) .u8)]
            .unit)]
      (.var .out)

/-- src/sha256.rs:376-378
```
fn default() -> SHA256 {
    SHA256::new()
}
``` -/
def fn_sha256_SHA256_default : FnDef where
  params := []
  body :=
    .block [] (.call .sha256_SHA256_new [])

end Verif.Source.Gen
