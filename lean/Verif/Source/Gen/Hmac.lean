-- Generated by tools/rust2lean.py from /repo/src. Do not edit.
import Verif.Source.Syntax

/-! The constants and functions of `src/hmac.rs`. -/

namespace Verif.Source.Gen

set_option maxRecDepth 8192

/-- src/hmac.rs:46-99
```
pub fn new(key: &[u8]) -> HMac {
    if key.len() > BLOCK_SIZE {
        let mut tmp = SHA256::new();
        tmp.update(key);
        return HMac::new(&tmp.digest());
    }
    let mut block: [u8; BLOCK_SIZE] = [0; BLOCK_SIZE];
    let mut inner = SHA256::new();
    let mut outer = SHA256::new();
    block[..key.len()].copy_from_slice(key);
    for elem in block.iter_mut() {
        *elem ^= 0x36;
    }
    inner.update(&block);
    /* NOTE: a ^ b ^ b ^ c = a ^ c */
    for elem in block.iter_mut() {
        *elem ^= 0x36 ^ 0x5c;
    }
    outer.update(&block);
    HMac { inner, outer }
}
``` -/
def fn_hmac_HMac_new : FnDef where
  params := [(.key, .val)]
  body :=
    .block
      [.ite (.bin .gt (.prim .len [.var .key]) (.const .sha256_BLOCK_SIZE))
         (.block
            [.let (.var .tmp) (.call .sha256_SHA256_new []),
             .call .sha256_SHA256_update [.var .tmp, .var .key],
             .return (.call .hmac_HMac_new [.call .sha256_SHA256_digest [.var .tmp]])]
            .unit)
         .unit,
       .let (.var .block) (.repeat (.int .u8 0) (.const .sha256_BLOCK_SIZE)),
       .let (.var .inner) (.call .sha256_SHA256_new []),
       .let (.var .outer) (.call .sha256_SHA256_new []),
       .mutPrim .copyFromSlice (.sliceTo (.var .block) (.prim .len [.var .key])) [.var .key],
       .forMut .elem (.var .block) (.block [.assignOp .xor (.var .elem) (.int .u8 54)] .unit),
       .call .sha256_SHA256_update [.var .inner, .var .block],
       .forMut .elem (.var .block)
         (.block [.assignOp .xor (.var .elem) (.bin .xor (.int .u8 54) (.int .u8 92))] .unit),
       .call .sha256_SHA256_update [.var .outer, .var .block]]
      (.struct .HMac [.inner, .outer] [.var .inner, .var .outer])

/-- src/hmac.rs:104-106
```
pub fn update(self: &mut HMac, data: &[u8]) {
    self.inner.update(data);
}
``` -/
def fn_hmac_HMac_update : FnDef where
  params := [(.self, .mutRef), (.data, .val)]
  body :=
    .block [.call .sha256_SHA256_update [.field (.var .self) .inner, .var .data]] .unit

/-- src/hmac.rs:111-114
```
pub fn digest(self: &mut HMac) -> [u8; DIGEST_SIZE] {
    self.outer.update(&self.inner.digest());
    self.outer.digest()
}
``` -/
def fn_hmac_HMac_digest : FnDef where
  params := [(.self, .mutRef)]
  body :=
    .block
      [.call .sha256_SHA256_update
         [.field (.var .self) .outer, .call .sha256_SHA256_digest [.field (.var .self) .inner]]]
      (.call .sha256_SHA256_digest [.field (.var .self) .outer])

end Verif.Source.Gen
