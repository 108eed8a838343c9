-- Generated by tools/rust2lean.py from /repo/src. Do not edit.
import Verif.Source.Syntax

/-! The constants and functions of `src/scrypt.rs`. -/

namespace Verif.Source.Gen

set_option maxRecDepth 8192

/-- src/scrypt.rs:12-12
```
const SALSA_ROUNDS: usize = 4;
``` -/
def const_scrypt_SALSA_ROUNDS : Expr :=
  .int .usize 4

/-- src/scrypt.rs:13-13
```
const PBKDF2_ROUNDS: usize = 1;
``` -/
def const_scrypt_PBKDF2_ROUNDS : Expr :=
  .int .usize 1

/-- src/scrypt.rs:14-14
```
const BLOCK_SIZE: usize = 64;
``` -/
def const_scrypt_BLOCK_SIZE : Expr :=
  .int .usize 64

/-- src/scrypt.rs:31-33
```
fn fmt(&self, f: &mut fmt::Formatter) -> fmt::Result {
    write!(f, "ScryptError: {}", self.description())
}
``` -/
def fn_scrypt_ScryptError_fmt : FnDef where
  params := [(.self, .val), (.f, .mutRef)]
  body :=
    .block []
      (.mutPrim (.write "ScryptError: " "") (.var .f) [.call .scrypt_ScryptError_description [.var .self]])

/-- src/scrypt.rs:37-44
```
fn description(&self) -> &str {
    match self {
        ScryptError::RIsTooSmall => "`r` must be larger than 1",
        ScryptError::NIsTooSmall => "`n` must be larger than 1",
        ScryptError::NIsNotAPowerOfTwo => "`n` must be a power of two",
        ScryptError::PIsTooSmall => "`p` must be larger than 1",
    }
}
``` -/
def fn_scrypt_ScryptError_description : FnDef where
  params := [(.self, .val)]
  body :=
    .block []
      (.match (.var .self)
         [(.ctor .ScryptError_RIsTooSmall []), (.ctor .ScryptError_NIsTooSmall []), (.ctor .ScryptError_NIsNotAPowerOfTwo []), (.ctor .ScryptError_PIsTooSmall [])]
         [.str "`r` must be larger than 1",
          .str "`n` must be larger than 1",
          .str "`n` must be a power of two",
          .str "`p` must be larger than 1"])

/-- src/scrypt.rs:73-75
```
fn block_xor(a: &[u8], b: &[u8]) -> Block {
    a.iter().zip(b.iter()).map(|(a, b)| a ^ b).collect()
}
``` -/
def fn_scrypt_block_xor : FnDef where
  params := [(.a, .val), (.b, .val)]
  body :=
    .block []
      (.map (.prim .zip [.var .a, .var .b]) (.tup [(.var .a), (.var .b)]) (.bin .xor (.var .a) (.var .b)))

/-- src/scrypt.rs:77-89
```
fn integerify(x: &[Block]) -> u64 {
    let last = &x[x.len() - 1];
    let tail = &last[(last.len() - SALSA_BLOCK_SIZE)..];
    u64::from(tail[0])
        | (u64::from(tail[1]) << 8)
        | (u64::from(tail[2]) << 16)
        | (u64::from(tail[3]) << 24)
        | (u64::from(tail[4]) << 32)
        | (u64::from(tail[5]) << 40)
        | (u64::from(tail[6]) << 48)
        | (u64::from(tail[7]) << 56)
}
``` -/
def fn_scrypt_integerify : FnDef where
  params := [(.x, .val)]
  body :=
    .block
      [.let (.var .last) (.index (.var .x) (.bin .sub (.prim .len [.var .x]) (.int .usize 1))),
       .let (.var .tail)
         (.sliceFrom (.var .last) (.bin .sub (.prim .len [.var .last]) (.const .salsa20_BLOCK_SIZE)))]
      (.bin .or
         (.bin .or
            (.bin .or
               (.bin .or
                  (.bin .or
                     (.bin .or
                        (.bin .or (.from .u64 (.index (.var .tail) (.int .usize 0)))
                           (.bin .shl (.from .u64 (.index (.var .tail) (.int .usize 1))) (.int .i32 8)))
                        (.bin .shl (.from .u64 (.index (.var .tail) (.int .usize 2))) (.int .i32 16)))
                     (.bin .shl (.from .u64 (.index (.var .tail) (.int .usize 3))) (.int .i32 24)))
                  (.bin .shl (.from .u64 (.index (.var .tail) (.int .usize 4))) (.int .i32 32)))
               (.bin .shl (.from .u64 (.index (.var .tail) (.int .usize 5))) (.int .i32 40)))
            (.bin .shl (.from .u64 (.index (.var .tail) (.int .usize 6))) (.int .i32 48)))
         (.bin .shl (.from .u64 (.index (.var .tail) (.int .usize 7))) (.int .i32 56)))

/-- src/scrypt.rs:103-105
```
pub fn new(r: usize, n: usize, p: usize) -> Self {
    Self { r, n, p }
}
``` -/
def fn_scrypt_Scrypt_new : FnDef where
  params := [(.r, .val), (.n, .val), (.p, .val)]
  body :=
    .block [] (.struct .Scrypt [.r, .n, .p] [.var .r, .var .n, .var .p])

/-- src/scrypt.rs:107-160
```
fn block_mix(self: &Scrypt, b: &[Block]) -> Vec<Block> {
    let mut x = b[2 * self.r - 1].clone();
    let mut y: Vec<Block> = Vec::with_capacity(2 * self.r);
    for b_elem in b.iter() {
        let t = block_xor(&x, b_elem);
        salsa20(&t, SALSA_ROUNDS, &mut x);
        y.push(x.clone());
    }
    let mut bs_head: Vec<Block> = Vec::with_capacity(2 * self.r);
    let mut bs_tail: Vec<Block> = Vec::with_capacity(self.r);
    for (i, y_elem) in y.into_iter().enumerate() {
        if i % 2 == 0 {
            bs_head.push(y_elem);
        } else {
            bs_tail.push(y_elem);
        }
    }
    bs_head.append(&mut bs_tail);
    bs_head
}
``` -/
def fn_scrypt_Scrypt_block_mix : FnDef where
  params := [(.self, .val), (.b, .val)]
  body :=
    .block
      [.let (.var .x)
         (.index (.var .b) (.bin .sub (.bin .mul (.int .usize 2) (.field (.var .self) .r)) (.int .usize 1))),
       .let (.var .y) (.prim (.withCapacity .vec) [.bin .mul (.int .usize 2) (.field (.var .self) .r)]),
       .for (.var .b_elem) (.var .b)
         (.block
            [.let (.var .t) (.call .scrypt_block_xor [.var .x, .var .b_elem]),
             .call .salsa20_salsa20 [.var .t, .const .scrypt_SALSA_ROUNDS, .var .x],
             .mutPrim .push (.var .y) [.var .x]]
            .unit),
       .let (.var .bs_head)
         (.prim (.withCapacity .vec) [.bin .mul (.int .usize 2) (.field (.var .self) .r)]),
       .let (.var .bs_tail) (.prim (.withCapacity .vec) [.field (.var .self) .r]),
       .for (.tup [(.var .i), (.var .y_elem)]) (.prim .enumerate [.var .y])
         (.block []
            (.ite (.bin .eq (.bin .rem (.var .i) (.int .usize 2)) (.int .usize 0))
               (.block [.mutPrim .push (.var .bs_head) [.var .y_elem]] .unit)
               (.block [.mutPrim .push (.var .bs_tail) [.var .y_elem]] .unit))),
       .appendFrom (.var .bs_head) (.var .bs_tail)]
      (.var .bs_head)

/-- src/scrypt.rs:162-219
```
fn ro_mix(self: &Scrypt, b: Vec<Block>) -> Vec<Block> {
    let mut x = b;
    let mut v: Vec<Vec<Block>> = Vec::with_capacity(self.n);
    for _i in 0..self.n {
        let t = self.block_mix(&x);
        v.push(x);
        x = t;
    }
    for _i in 0..self.n {
        let j = (integerify(&x) as usize) % self.n;
        let t: Vec<Block> = x
            .iter()
            .zip(v[j].iter())
            .map(|(x_block, v_block)| block_xor(x_block, v_block))
            .collect();
        x = self.block_mix(&t);
    }
    x
}
``` -/
def fn_scrypt_Scrypt_ro_mix : FnDef where
  params := [(.self, .val), (.b, .val)]
  body :=
    .block
      [.let (.var .x) (.var .b),
       .let (.var .v) (.prim (.withCapacity .vec) [.field (.var .self) .n]),
       .for (.var ._i) (.range (.int .usize 0) (.field (.var .self) .n))
         (.block
            [.let (.var .t) (.call .scrypt_Scrypt_block_mix [.var .self, .var .x]),
             .mutPrim .push (.var .v) [.var .x],
             .assign (.var .x) (.var .t)]
            .unit),
       .for (.var ._i) (.range (.int .usize 0) (.field (.var .self) .n))
         (.block
            [.let (.var .j)
               (.bin .rem (.cast (.call .scrypt_integerify [.var .x]) .usize) (.field (.var .self) .n)),
             .let (.var .t)
               (.map (.prim .zip [.var .x, .index (.var .v) (.var .j)]) (.tup [(.var .x_block), (.var .v_block)])
                  (.call .scrypt_block_xor [.var .x_block, .var .v_block])),
             .assign (.var .x) (.call .scrypt_Scrypt_block_mix [.var .self, .var .t])]
            .unit)]
      (.var .x)

/-- src/scrypt.rs:224-300
```
pub fn derive(
    self: &Scrypt,
    passphrase: &[u8],
    salt: &[u8],
    out: &mut [u8],
) -> Result<(), ScryptError> {
    if self.r < 1 {
        return Err(ScryptError::RIsTooSmall);
    }
    if self.n < 1 {
        return Err(ScryptError::NIsTooSmall);
    }
    if ((self.n - 1) & self.n) != 0 {
        return Err(ScryptError::NIsNotAPowerOfTwo);
    }
    if self.p < 1 {
        return Err(ScryptError::PIsTooSmall);
    }
    let mut raw_b: Vec<u8> = vec![0; self.p * 2 * BLOCK_SIZE * self.r];
    pbkdf2_sha256(passphrase, salt, PBKDF2_ROUNDS, &mut raw_b);
    let mut b: Vec<Vec<Block>> = raw_b
        .chunks_exact(2 * BLOCK_SIZE * self.r)
        .map(|chunk| {
            chunk
                .chunks_exact(BLOCK_SIZE)
                .map(|sub_chunk| sub_chunk.to_vec())
                .collect()
        })
        .collect();
    b = b.into_iter().map(|elem| self.ro_mix(elem)).collect();
    let b_salt: Vec<u8> = b.into_iter().flatten().flatten().collect();
    pbkdf2_sha256(passphrase, &b_salt, PBKDF2_ROUNDS, out);
    Ok(())
}
``` -/
def fn_scrypt_Scrypt_derive : FnDef where
  params := [(.self, .val), (.passphrase, .val), (.salt, .val), (.out, .mutRef)]
  body :=
    .block
      [.ite (.bin .lt (.field (.var .self) .r) (.int .usize 1))
         (.block [.return (.ctor .Err [.ctor .ScryptError_RIsTooSmall []])] .unit)
         .unit,
       .ite (.bin .lt (.field (.var .self) .n) (.int .usize 1))
         (.block [.return (.ctor .Err [.ctor .ScryptError_NIsTooSmall []])] .unit)
         .unit,
       .ite
         (.bin .ne (.bin .and (.bin .sub (.field (.var .self) .n) (.int .usize 1)) (.field (.var .self) .n))
            (.int .usize 0))
         (.block [.return (.ctor .Err [.ctor .ScryptError_NIsNotAPowerOfTwo []])] .unit)
         .unit,
       .ite (.bin .lt (.field (.var .self) .p) (.int .usize 1))
         (.block [.return (.ctor .Err [.ctor .ScryptError_PIsTooSmall []])] .unit)
         .unit,
       .let (.var .raw_b)
         (.prim (.vecRepeat .u8)
            [.int .u8 0,
             .bin .mul
               (.bin .mul (.bin .mul (.field (.var .self) .p) (.int .usize 2)) (.const .scrypt_BLOCK_SIZE))
               (.field (.var .self) .r)]),
       .call .pbkdf2_pbkdf2_sha256
         [.var .passphrase, .var .salt, .const .scrypt_PBKDF2_ROUNDS, .var .raw_b],
       .let (.var .b)
         (.map
            (.prim .chunksExact
               [.var .raw_b,
                .bin .mul (.bin .mul (.int .usize 2) (.const .scrypt_BLOCK_SIZE)) (.field (.var .self) .r)])
            (.var .chunk)
            (.block []
               (.map (.prim .chunksExact [.var .chunk, .const .scrypt_BLOCK_SIZE]) (.var .sub_chunk)
                  (.var .sub_chunk)))),
       .assign (.var .b)
         (.map (.var .b) (.var .elem) (.call .scrypt_Scrypt_ro_mix [.var .self, .var .elem])),
       .let (.var .b_salt) (.prim .flatten [.prim .flatten [.var .b]]),
       .call .pbkdf2_pbkdf2_sha256
         [.var .passphrase, .var .b_salt, .const .scrypt_PBKDF2_ROUNDS, .var .out]]
      (.ctor .Ok [.unit])

end Verif.Source.Gen
