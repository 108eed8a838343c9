-- Generated by tools/rust2lean.py from /repo/src. Do not edit.
import Verif.Source.Syntax

/-! The constants and functions of `src/pkcs7.rs`. -/

namespace Verif.Source.Gen

set_option maxRecDepth 8192

/-- src/pkcs7.rs:16-21
```
pub fn new(block_size: usize) -> Self {
    Pad {
        block_size,
        storage: Vec::with_capacity(2 * block_size),
    }
}
``` -/
def fn_pkcs7_Pad_new : FnDef where
  params := [(.block_size, .val)]
  body :=
    .block []
      (.struct .Pad [.block_size, .storage]
         [.var .block_size, .prim (.withCapacity .u8) [.bin .mul (.int .usize 2) (.var .block_size)]])

/-- src/pkcs7.rs:23-41
```
pub fn write(&mut self, buf: &[u8]) -> Option<Vec<u8>> {
    for &elem in buf {
        self.storage.push(elem);
    }
    if self.storage.len() < self.block_size {
        return None;
    }
    let tail_len = self.storage.len() % self.block_size;
    let tail_pos = self.storage.len() - tail_len;
    let mut tail = self.storage.split_off(tail_pos);
    let head = self.storage.clone();
    self.storage.clear();
    self.storage.append(&mut tail);
    Some(head)
}
``` -/
def fn_pkcs7_Pad_write : FnDef where
  params := [(.self, .mutRef), (.buf, .val)]
  body :=
    .block
      [.for (.var .elem) (.var .buf)
         (.block [.mutPrim .push (.field (.var .self) .storage) [.var .elem]] .unit),
       .ite (.bin .lt (.prim .len [.field (.var .self) .storage]) (.field (.var .self) .block_size))
         (.block [.return (.ctor .None [])] .unit)
         .unit,
       .let (.var .tail_len)
         (.bin .rem (.prim .len [.field (.var .self) .storage]) (.field (.var .self) .block_size)),
       .let (.var .tail_pos) (.bin .sub (.prim .len [.field (.var .self) .storage]) (.var .tail_len)),
       .let (.var .tail) (.mutPrim .splitOff (.field (.var .self) .storage) [.var .tail_pos]),
       .let (.var .head) (.field (.var .self) .storage),
       .mutPrim .clear (.field (.var .self) .storage) [],
       .appendFrom (.field (.var .self) .storage) (.var .tail)]
      (.ctor .Some [.var .head])

/-- src/pkcs7.rs:43-52
```
pub fn flush(&mut self) -> Vec<u8> {
    let len = self.block_size - self.storage.len();
    while self.storage.len() < self.block_size {
        self.storage.push(len as u8);
    }
    let result = self.storage.clone();
    self.storage.clear();
    result
}
``` -/
def fn_pkcs7_Pad_flush : FnDef where
  params := [(.self, .mutRef)]
  body :=
    .block
      [.let (.var .len)
         (.bin .sub (.field (.var .self) .block_size) (.prim .len [.field (.var .self) .storage])),
       .while (.bin .lt (.prim .len [.field (.var .self) .storage]) (.field (.var .self) .block_size))
         (.block [.mutPrim .push (.field (.var .self) .storage) [.cast (.var .len) .u8]] .unit),
       .let (.var .result) (.field (.var .self) .storage),
       .mutPrim .clear (.field (.var .self) .storage) []]
      (.var .result)

/-- src/pkcs7.rs:66-68
```
fn fmt(&self, f: &mut fmt::Formatter) -> fmt::Result {
    write!(f, "UnpadError: {}", self.description())
}
``` -/
def fn_pkcs7_UnpadError_fmt : FnDef where
  params := [(.self, .val), (.f, .mutRef)]
  body :=
    .block []
      (.mutPrim (.write "UnpadError: " "") (.var .f) [.call .pkcs7_UnpadError_description [.var .self]])

/-- src/pkcs7.rs:72-77
```
fn description(&self) -> &str {
    match self {
        UnpadError::UnfinishedBlock => "data length must be a multiple of block size",
        UnpadError::InvalidPadding => "final block contains invalid padding",
    }
}
``` -/
def fn_pkcs7_UnpadError_description : FnDef where
  params := [(.self, .val)]
  body :=
    .block []
      (.match (.var .self) [(.ctor .UnpadError_UnfinishedBlock []), (.ctor .UnpadError_InvalidPadding [])]
         [.str "data length must be a multiple of block size",
          .str "final block contains invalid padding"])

/-- src/pkcs7.rs:86-91
```
pub fn new(block_size: usize) -> Self {
    Unpad {
        block_size,
        storage: Vec::with_capacity(2 * block_size),
    }
}
``` -/
def fn_pkcs7_Unpad_new : FnDef where
  params := [(.block_size, .val)]
  body :=
    .block []
      (.struct .Unpad [.block_size, .storage]
         [.var .block_size, .prim (.withCapacity .u8) [.bin .mul (.int .usize 2) (.var .block_size)]])

/-- src/pkcs7.rs:93-120
```
pub fn write(&mut self, buf: &[u8]) -> Option<Vec<u8>> {
    for &elem in buf {
        self.storage.push(elem);
    }
    if self.storage.len() <= self.block_size {
        return None;
    }
    let mut tail_len = self.storage.len() % self.block_size;
    if tail_len == 0 {
        tail_len = self.block_size;
    }
    let tail_pos = self.storage.len() - tail_len;
    let mut tail = self.storage.split_off(tail_pos);
    let head = self.storage.clone();
    self.storage.clear();
    self.storage.append(&mut tail);
    Some(head)
}
``` -/
def fn_pkcs7_Unpad_write : FnDef where
  params := [(.self, .mutRef), (.buf, .val)]
  body :=
    .block
      [.for (.var .elem) (.var .buf)
         (.block [.mutPrim .push (.field (.var .self) .storage) [.var .elem]] .unit),
       .ite (.bin .le (.prim .len [.field (.var .self) .storage]) (.field (.var .self) .block_size))
         (.block [.return (.ctor .None [])] .unit)
         .unit,
       .let (.var .tail_len)
         (.bin .rem (.prim .len [.field (.var .self) .storage]) (.field (.var .self) .block_size)),
       .ite (.bin .eq (.var .tail_len) (.int .usize 0))
         (.block [.assign (.var .tail_len) (.field (.var .self) .block_size)] .unit)
         .unit,
       .let (.var .tail_pos) (.bin .sub (.prim .len [.field (.var .self) .storage]) (.var .tail_len)),
       .let (.var .tail) (.mutPrim .splitOff (.field (.var .self) .storage) [.var .tail_pos]),
       .let (.var .head) (.field (.var .self) .storage),
       .mutPrim .clear (.field (.var .self) .storage) [],
       .appendFrom (.field (.var .self) .storage) (.var .tail)]
      (.ctor .Some [.var .head])

/-- src/pkcs7.rs:122-146
```
pub fn flush(&mut self) -> Result<Vec<u8>, UnpadError> {
    if self.storage.len() != self.block_size {
        return Err(UnpadError::UnfinishedBlock);
    }
    let len = self.storage[self.storage.len() - 1];
    if len > (self.block_size as u8) {
        return Err(UnpadError::InvalidPadding);
    }
    let pad_off: usize = self.block_size - usize::from(len);
    let mut is_same: u8 = 0;
    for b in self.storage[pad_off..].iter() {
        is_same |= len ^ b;
    }
    if is_same != 0 {
        return Err(UnpadError::InvalidPadding);
    }
    let result = self.storage[..pad_off].to_vec();
    self.storage.clear();
    Ok(result)
}
``` -/
def fn_pkcs7_Unpad_flush : FnDef where
  params := [(.self, .mutRef)]
  body :=
    .block
      [.ite (.bin .ne (.prim .len [.field (.var .self) .storage]) (.field (.var .self) .block_size))
         (.block [.return (.ctor .Err [.ctor .UnpadError_UnfinishedBlock []])] .unit)
         .unit,
       .let (.var .len)
         (.index (.field (.var .self) .storage)
            (.bin .sub (.prim .len [.field (.var .self) .storage]) (.int .usize 1))),
       .ite (.bin .gt (.var .len) (.cast (.field (.var .self) .block_size) .u8))
         (.block [.return (.ctor .Err [.ctor .UnpadError_InvalidPadding []])] .unit)
         .unit,
       .let (.var .pad_off) (.bin .sub (.field (.var .self) .block_size) (.from .usize (.var .len))),
       .let (.var .is_same) (.int .u8 0),
       .for (.var .b) (.sliceFrom (.field (.var .self) .storage) (.var .pad_off))
         (.block [.assignOp .or (.var .is_same) (.bin .xor (.var .len) (.var .b))] .unit),
       .ite (.bin .ne (.var .is_same) (.int .u8 0))
         (.block [.return (.ctor .Err [.ctor .UnpadError_InvalidPadding []])] .unit)
         .unit,
       .let (.var .result) (.sliceTo (.field (.var .self) .storage) (.var .pad_off)),
       .mutPrim .clear (.field (.var .self) .storage) []]
      (.ctor .Ok [.var .result])

end Verif.Source.Gen
