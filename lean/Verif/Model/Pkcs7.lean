import Verif.Rust

/-! Model of `/repo/src/pkcs7.rs`. -/

namespace Verif.Pkcs7
open Verif

/-- src/pkcs7.rs:10-13 -/
structure Pad where
  block_size : Nat
  storage : List U8
deriving DecidableEq, Repr

namespace Pad

/-- src/pkcs7.rs:16-21. The capacity `2 * block_size` is 32 for the only block size used by the crate and its
overflow is not modelled. -/
def new (block_size : Nat) : Pad := { block_size, storage := [] }

/-- src/pkcs7.rs:23-41 -/
def write (T : Target) (self : Pad) (buf : List U8) : M (Pad × Option (List U8)) := do
  -- for &elem in buf { self.storage.push(elem); }
  let self := { self with storage := self.storage ++ buf }
  if self.storage.length < self.block_size then
    return (self, none)
  let tail_len ← T.rem self.storage.length self.block_size
  let tail_pos ← T.sub self.storage.length tail_len
  -- split_off(tail_pos): the tail is returned, the head stays
  let tail := self.storage.drop tail_pos
  let head := self.storage.take tail_pos
  return ({ self with storage := tail }, some head)

/-- src/pkcs7.rs:43-52. The `while self.storage.len() < self.block_size` loop pushes the same byte until the
block is full. -/
def flush (T : Target) (self : Pad) : M (Pad × List U8) := do
  let len ← T.sub self.block_size self.storage.length
  let result := self.storage ++ List.replicate (self.block_size - self.storage.length) (BitVec.ofNat 8 len)
  return ({ self with storage := [] }, result)

end Pad

/-- src/pkcs7.rs:57-63 -/
inductive UnpadError where
  | UnfinishedBlock
  | InvalidPadding
deriving DecidableEq, Repr

/-- src/pkcs7.rs:71-78 -/
def UnpadError.description : UnpadError → String
  | .UnfinishedBlock => "data length must be a multiple of block size"
  | .InvalidPadding => "final block contains invalid padding"

/-- src/pkcs7.rs:65-69 -/
def UnpadError.display (e : UnpadError) : String := "UnpadError: " ++ e.description

/-- src/pkcs7.rs:80-83 -/
structure Unpad where
  block_size : Nat
  storage : List U8
deriving DecidableEq, Repr

namespace Unpad

/-- src/pkcs7.rs:86-91 -/
def new (block_size : Nat) : Unpad := { block_size, storage := [] }

/-- src/pkcs7.rs:93-120 -/
def write (T : Target) (self : Unpad) (buf : List U8) : M (Unpad × Option (List U8)) := do
  let self := { self with storage := self.storage ++ buf }
  if self.storage.length ≤ self.block_size then
    return (self, none)
  let tail_len ← T.rem self.storage.length self.block_size
  let tail_len := if tail_len = 0 then self.block_size else tail_len
  let tail_pos ← T.sub self.storage.length tail_len
  let tail := self.storage.drop tail_pos
  let head := self.storage.take tail_pos
  return ({ self with storage := tail }, some head)

/-- src/pkcs7.rs:122-146 -/
def flush (T : Target) (self : Unpad) : M (Unpad × Except UnpadError (List U8)) := do
  if self.storage.length ≠ self.block_size then
    return (self, .error .UnfinishedBlock)
  let len ← idx self.storage (← T.sub self.storage.length 1)
  if len > BitVec.ofNat 8 self.block_size then
    return (self, .error .InvalidPadding)
  let pad_off ← T.sub self.block_size len.toNat
  let is_same := (← sliceFrom self.storage pad_off).foldl (fun is_same b => is_same ||| (len ^^^ b)) (0 : U8)
  if is_same ≠ 0 then
    return (self, .error .InvalidPadding)
  let result ← slice self.storage 0 pad_off
  return ({ self with storage := [] }, .ok result)

end Unpad
end Verif.Pkcs7
