-- Generated by tools/rust2lean.py from /repo/src. Do not edit.
import Verif.Source.Syntax

/-! The constants and functions of `src/pbkdf2.rs`. -/

namespace Verif.Source.Gen

set_option maxRecDepth 8192

/-- src/pbkdf2.rs:32-113
```
pub fn pbkdf2_sha256(password: &[u8], salt: &[u8], c: usize, out: &mut [u8]) {
    let l: usize = (out.len() + DIGEST_SIZE - 1) / DIGEST_SIZE;
    for i in 1..=l {
        let ctr: [u8; 4] = [(i >> 24) as u8, (i >> 16) as u8, (i >> 8) as u8, i as u8];
        let mut hmac = HMac::new(password);
        hmac.update(salt);
        hmac.update(&ctr);
        let mut u = hmac.digest();
        let mut t = u;
        for _j in 2..=c {
            let mut hmac = HMac::new(password);
            hmac.update(&u);
            u = hmac.digest();
            for k in 0..u.len() {
                t[k] ^= u[k];
            }
        }
        let start = (i - 1) * DIGEST_SIZE;
        let end = std::cmp::min(i * DIGEST_SIZE, out.len());
        out[start..end].copy_from_slice(&t[..(end - start)]);
    }
}
``` -/
def fn_pbkdf2_pbkdf2_sha256 : FnDef where
  params := [(.password, .val), (.salt, .val), (.c, .val), (.out, .mutRef)]
  body :=
    .block
      [.let (.var .l)
         (.bin .div
            (.bin .sub (.bin .add (.prim .len [.var .out]) (.const .sha256_DIGEST_SIZE)) (.int .usize 1))
            (.const .sha256_DIGEST_SIZE))]
      (.for (.var .i) (.rangeIncl (.int .usize 1) (.var .l))
         (.block
            [.let (.var .ctr)
               (.array
                  [.cast (.bin .shr (.var .i) (.int .i32 24)) .u8,
                   .cast (.bin .shr (.var .i) (.int .i32 16)) .u8,
                   .cast (.bin .shr (.var .i) (.int .i32 8)) .u8,
                   .cast (.var .i) .u8]),
             .let (.var .hmac) (.call .hmac_HMac_new [.var .password]),
             .call .hmac_HMac_update [.var .hmac, .var .salt],
             .call .hmac_HMac_update [.var .hmac, .var .ctr],
             .let (.var .u) (.call .hmac_HMac_digest [.var .hmac]),
             .let (.var .t) (.var .u),
             .for (.var ._j) (.rangeIncl (.int .usize 2) (.var .c))
               (.block
                  [.let (.var .hmac) (.call .hmac_HMac_new [.var .password]),
                   .call .hmac_HMac_update [.var .hmac, .var .u],
                   .assign (.var .u) (.call .hmac_HMac_digest [.var .hmac])]
                  (.for (.var .k) (.range (.int .usize 0) (.prim .len [.var .u]))
                     (.block [.assignOp .xor (.index (.var .t) (.var .k)) (.index (.var .u) (.var .k))] .unit))),
             .let (.var .start) (.bin .mul (.bin .sub (.var .i) (.int .usize 1)) (.const .sha256_DIGEST_SIZE)),
             .let (.var .«end»)
               (.prim .min [.bin .mul (.var .i) (.const .sha256_DIGEST_SIZE), .prim .len [.var .out]]),
             .mutPrim .copyFromSlice (.slice (.var .out) (.var .start) (.var .«end»))
               [.sliceTo (.var .t) (.bin .sub (.var .«end») (.var .start))]]
            .unit))

end Verif.Source.Gen
