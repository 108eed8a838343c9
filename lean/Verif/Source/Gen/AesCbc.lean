-- Generated by tools/rust2lean.py from /repo/src. Do not edit.
import Verif.Source.Syntax

/-! The constants and functions of `src/aes_cbc.rs`. -/

namespace Verif.Source.Gen

set_option maxRecDepth 8192

/-- src/aes_cbc.rs:48-54
```
pub fn new(iv: [u8; BLOCK_SIZE]) -> Self {
    Cipher {
        aes: AES::new(),
        pad: pkcs7::Pad::new(BLOCK_SIZE),
        iv,
    }
}
``` -/
def fn_aes_cbc_Cipher_new : FnDef where
  params := [(.iv, .val)]
  body :=
    .block []
      (.struct .Cipher [.aes, .pad, .iv]
         [.call .aes_AES_new [], .call .pkcs7_Pad_new [.const .aes_BLOCK_SIZE], .var .iv])

/-- src/aes_cbc.rs:59-62
```
pub fn init(&mut self, key: &[u8]) -> Result<(), AESError> {
    self.aes.init(key)?;
    Ok(())
}
``` -/
def fn_aes_cbc_Cipher_init : FnDef where
  params := [(.self, .mutRef), (.key, .val)]
  body :=
    .block [.try (.call .aes_AES_init [.field (.var .self) .aes, .var .key])] (.ctor .Ok [.unit])

/-- src/aes_cbc.rs:65-79
```
pub fn write(&mut self, b: &[u8]) -> Result<Vec<u8>, AESError> {
    let blocks = match self.pad.write(b) {
        None => {
            return Ok(vec![]);
        }
        Some(block) => block,
    };
    let mut result: Vec<u8> = Vec::with_capacity(blocks.len());
    for block in blocks.chunks(BLOCK_SIZE) {
        let mut ciphertext = self.encrypt_block(block)?;
        result.append(&mut ciphertext);
    }
    Ok(result)
}
``` -/
def fn_aes_cbc_Cipher_write : FnDef where
  params := [(.self, .mutRef), (.b, .val)]
  body :=
    .block
      [.let (.var .blocks)
         (.match (.call .pkcs7_Pad_write [.field (.var .self) .pad, .var .b])
            [(.ctor .None []), (.ctor .Some [(.var .block)])]
            [.block [.return (.ctor .Ok [.array []])] .unit, .var .block]),
       .let (.var .result) (.prim (.withCapacity .u8) [.prim .len [.var .blocks]]),
       .for (.var .block) (.prim .chunks [.var .blocks, .const .aes_BLOCK_SIZE])
         (.block
            [.let (.var .ciphertext) (.try (.call .aes_cbc_Cipher_encrypt_block [.var .self, .var .block])),
             .appendFrom (.var .result) (.var .ciphertext)]
            .unit)]
      (.ctor .Ok [.var .result])

/-- src/aes_cbc.rs:82-85
```
pub fn flush(&mut self) -> Result<Vec<u8>, AESError> {
    let block = self.pad.flush();
    Ok(self.encrypt_block(&block)?)
}
``` -/
def fn_aes_cbc_Cipher_flush : FnDef where
  params := [(.self, .mutRef)]
  body :=
    .block [.let (.var .block) (.call .pkcs7_Pad_flush [.field (.var .self) .pad])]
      (.ctor .Ok [.try (.call .aes_cbc_Cipher_encrypt_block [.var .self, .var .block])])

/-- src/aes_cbc.rs:87-102
```
fn encrypt_block(&mut self, b: &[u8]) -> Result<Vec<u8>, AESError> {
    let mut block = [0; BLOCK_SIZE];
    block.copy_from_slice(&b);
    for (elem, iv_elem) in block.iter_mut().zip(self.iv.iter()) {
        *elem ^= iv_elem;
    }
    match self.aes.encrypt(&block) {
        Ok(new_iv) => {
            self.iv = new_iv;
            Ok(new_iv.to_vec())
        }
        Err(err) => Err(err),
    }
}
``` -/
def fn_aes_cbc_Cipher_encrypt_block : FnDef where
  params := [(.self, .mutRef), (.b, .val)]
  body :=
    .block
      [.let (.var .block) (.repeat (.int .u8 0) (.const .aes_BLOCK_SIZE)),
       .mutPrim .copyFromSlice (.var .block) [.var .b],
       .forMutZip .elem (.var .iv_elem) (.var .block) (.field (.var .self) .iv)
         (.block [.assignOp .xor (.var .elem) (.var .iv_elem)] .unit)]
      (.match (.call .aes_AES_encrypt [.field (.var .self) .aes, .var .block])
         [(.ctor .Ok [(.var .new_iv)]), (.ctor .Err [(.var .err)])]
         [.block [.assign (.field (.var .self) .iv) (.var .new_iv)] (.ctor .Ok [.var .new_iv]),
          .ctor .Err [.var .err]])

/-- src/aes_cbc.rs:150-152
```
fn fmt(&self, f: &mut fmt::Formatter) -> fmt::Result {
    write!(f, "DecipherError: {}", self.description())
}
``` -/
def fn_aes_cbc_DecipherError_fmt : FnDef where
  params := [(.self, .val), (.f, .mutRef)]
  body :=
    .block []
      (.mutPrim (.write "DecipherError: " "") (.var .f)
         [.call .aes_cbc_DecipherError_description [.var .self]])

/-- src/aes_cbc.rs:156-162
```
fn description(&self) -> &str {
    match self {
        DecipherError::AES(err) => err.description(),
        DecipherError::PKCS7(err) => err.description(),
    }
}
``` -/
def fn_aes_cbc_DecipherError_description : FnDef where
  params := [(.self, .val)]
  body :=
    .block []
      (.match (.var .self)
         [(.ctor .DecipherError_AES [(.var .err)]), (.ctor .DecipherError_PKCS7 [(.var .err)])]
         [.call .aes_AESError_description [.var .err], .call .pkcs7_UnpadError_description [.var .err]])

/-- src/aes_cbc.rs:169-176
```
pub fn new(iv: [u8; BLOCK_SIZE]) -> Self {
    Decipher {
        aes: AES::new(),
        unpad: pkcs7::Unpad::new(BLOCK_SIZE),
        iv,
        buffer: pkcs7::Pad::new(BLOCK_SIZE),
    }
}
``` -/
def fn_aes_cbc_Decipher_new : FnDef where
  params := [(.iv, .val)]
  body :=
    .block []
      (.struct .Decipher [.aes, .unpad, .iv, .buffer]
         [.call .aes_AES_new [],
          .call .pkcs7_Unpad_new [.const .aes_BLOCK_SIZE],
          .var .iv,
          .call .pkcs7_Pad_new [.const .aes_BLOCK_SIZE]])

/-- src/aes_cbc.rs:181-184
```
pub fn init(&mut self, key: &[u8]) -> Result<(), AESError> {
    self.aes.init(key)?;
    Ok(())
}
``` -/
def fn_aes_cbc_Decipher_init : FnDef where
  params := [(.self, .mutRef), (.key, .val)]
  body :=
    .block [.try (.call .aes_AES_init [.field (.var .self) .aes, .var .key])] (.ctor .Ok [.unit])

/-- src/aes_cbc.rs:187-214
```
pub fn write(&mut self, b: &[u8]) -> Result<Vec<u8>, DecipherError> {
    let blocks = match self.buffer.write(b) {
        Some(blocks) => blocks,
        None => {
            return Ok(vec![]);
        }
    };
    let mut padded_result = Vec::with_capacity(blocks.len());
    for ciphertext in blocks.chunks(BLOCK_SIZE) {
        let mut block = [0; BLOCK_SIZE];
        block.copy_from_slice(&ciphertext);
        let mut cleartext = match self.aes.decrypt(&block) {
            Err(err) => return Err(DecipherError::AES(err)),
            Ok(out) => out,
        };
        for (elem, iv_elem) in cleartext.iter_mut().zip(self.iv.iter()) {
            *elem ^= iv_elem;
        }
        self.iv = block;
        padded_result.append(&mut cleartext.to_vec());
    }
    Ok(self.unpad.write(&padded_result).unwrap_or_default())
}
``` -/
def fn_aes_cbc_Decipher_write : FnDef where
  params := [(.self, .mutRef), (.b, .val)]
  body :=
    .block
      [.let (.var .blocks)
         (.match (.call .pkcs7_Pad_write [.field (.var .self) .buffer, .var .b])
            [(.ctor .Some [(.var .blocks)]), (.ctor .None [])]
            [.var .blocks, .block [.return (.ctor .Ok [.array []])] .unit]),
       .let (.var .padded_result) (.prim (.withCapacity .u8) [.prim .len [.var .blocks]]),
       .for (.var .ciphertext) (.prim .chunks [.var .blocks, .const .aes_BLOCK_SIZE])
         (.block
            [.let (.var .block) (.repeat (.int .u8 0) (.const .aes_BLOCK_SIZE)),
             .mutPrim .copyFromSlice (.var .block) [.var .ciphertext],
             .let (.var .cleartext)
               (.match (.call .aes_AES_decrypt [.field (.var .self) .aes, .var .block])
                  [(.ctor .Err [(.var .err)]), (.ctor .Ok [(.var .out)])]
                  [.return (.ctor .Err [.ctor .DecipherError_AES [.var .err]]), .var .out]),
             .forMutZip .elem (.var .iv_elem) (.var .cleartext) (.field (.var .self) .iv)
               (.block [.assignOp .xor (.var .elem) (.var .iv_elem)] .unit),
             .assign (.field (.var .self) .iv) (.var .block),
             .mutPrim .append (.var .padded_result) [.var .cleartext]]
            .unit)]
      (.ctor .Ok
         [.prim .unwrapOrDefault [.call .pkcs7_Unpad_write [.field (.var .self) .unpad, .var .padded_result]]])

/-- src/aes_cbc.rs:217-222
```
pub fn flush(&mut self) -> Result<Vec<u8>, DecipherError> {
    match self.unpad.flush() {
        Err(err) => Err(DecipherError::PKCS7(err)),
        Ok(block) => Ok(block),
    }
}
``` -/
def fn_aes_cbc_Decipher_flush : FnDef where
  params := [(.self, .mutRef)]
  body :=
    .block []
      (.match (.call .pkcs7_Unpad_flush [.field (.var .self) .unpad])
         [(.ctor .Err [(.var .err)]), (.ctor .Ok [(.var .block)])]
         [.ctor .Err [.ctor .DecipherError_PKCS7 [.var .err]], .ctor .Ok [.var .block]])

end Verif.Source.Gen
