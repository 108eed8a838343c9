import Verif.Model.Sha256

/-! Model of `/repo/src/hmac.rs`. -/

namespace Verif.Hmac
open Verif Verif.Sha256

/-- src/hmac.rs:31-34 -/
structure HMac where
  inner : SHA256
  outer : SHA256
deriving DecidableEq, Repr

namespace HMac

/-- `HMac::new` after the test for long keys (src/hmac.rs:80-98). `block[..key.len()].copy_from_slice(key)`
panics when the key does not fit. -/
def newShort (T : Target) (key : List U8) : M HMac := do
  let block ← copyFromSlice (List.replicate BLOCK_SIZE (0 : U8)) 0 key.length key
  let inner := SHA256.new
  let outer := SHA256.new
  let block := block.map (fun elem => elem ^^^ 0x36)
  let inner ← inner.update T block
  -- NOTE: a ^ b ^ b ^ c = a ^ c
  let block := block.map (fun elem => elem ^^^ (0x36 ^^^ 0x5c))
  let outer ← outer.update T block
  return { inner, outer }

/-- src/hmac.rs:46-99. The recursive call `HMac::new(&tmp.digest())` gets a 32-byte key and so goes to the
second branch; it is written as a call of that branch (`Verif.Hmac.HMac.new_rec` proves that the
recursive equation of the source holds). -/
def new (T : Target) (key : List U8) : M HMac :=
  if key.length > BLOCK_SIZE then do
    let tmp := SHA256.new
    let tmp ← tmp.update T key
    let (_, d) ← tmp.digest T
    newShort T d.toList
  else
    newShort T key

/-- src/hmac.rs:104-106 -/
def update (T : Target) (self : HMac) (data : List U8) : M HMac := do
  let inner ← self.inner.update T data
  return { self with inner }

/-- src/hmac.rs:111-114 -/
def digest (T : Target) (self : HMac) : M (HMac × Vector U8 32) := do
  let (inner, d) ← self.inner.digest T
  let outer ← self.outer.update T d.toList
  let (outer, out) ← outer.digest T
  return ({ inner, outer }, out)

end HMac
end Verif.Hmac
