import Verif.Model.Hmac

/-! Model of `/repo/src/pbkdf2.rs`. -/

namespace Verif.Pbkdf2
open Verif Verif.Sha256 Verif.Hmac

/-- The inner loop `for k in 0..u.len() { t[k] ^= u[k]; }` (src/pbkdf2.rs:103-105). -/
def xorInto (t u : Vector U8 32) : M (Vector U8 32) :=
  forRange 0 32 t fun k t => do
    let tk ← vidx t k
    let uk ← vidx u k
    vupd t k (tk ^^^ uk)

/-- The computation of one block `t` (src/pbkdf2.rs:87-106). -/
def derive_block (T : Target) (password salt : List U8) (c i : Nat) : M (Vector U8 32) := do
  let ctr : List U8 := [BitVec.ofNat 8 (i >>> 24), BitVec.ofNat 8 (i >>> 16), BitVec.ofNat 8 (i >>> 8), BitVec.ofNat 8 i]
  -- U_1 = PRF (P, S || INT (i))
  let hmac ← HMac.new T password
  let hmac ← hmac.update T salt
  let hmac ← hmac.update T ctr
  let (_, u) ← hmac.digest T
  let t := u
  let (_, t) ← forRangeIncl 2 c (u, t) fun _j (u, t) => do
    -- U_c = PRF (P, U_{c-1})
    let hmac ← HMac.new T password
    let hmac ← hmac.update T u.toList
    let (_, u) ← hmac.digest T
    -- Xor Us
    let t ← xorInto t u
    return (u, t)
  return t

/-- src/pbkdf2.rs:32-113; `out` is the buffer before the call, the result is the buffer after it. -/
def pbkdf2_sha256 (T : Target) (password salt : List U8) (c : Nat) (out : List U8) : M (List U8) := do
  let l := (← T.sub (← T.add out.length DIGEST_SIZE) 1) / DIGEST_SIZE
  forRangeIncl 1 l out fun i out => do
    let t ← derive_block T password salt c i
    -- Copy out the results
    let start ← T.mul (← T.sub i 1) DIGEST_SIZE
    let endm ← T.mul i DIGEST_SIZE
    let «end» := min endm out.length
    let src ← slice t.toList 0 (← T.sub «end» start)
    copyFromSlice out start «end» src

end Verif.Pbkdf2
