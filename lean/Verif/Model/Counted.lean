import Verif.Model.Scrypt

/-! Copies of the models that also count calls: of the SHA-256 compression function (`SHA256::process_block`) in the
hashing functions, of the Salsa20 core (`salsa20`) in scrypt. `Verif.Props.Work` proves that forgetting the count gives back
the models themselves. -/

namespace Verif.Counted
open Verif Verif.Sha256 Verif.Hmac Verif.Pbkdf2 Verif.Scrypt Verif.Salsa20

/-- A computation that returns a value or panics, and counts. The counted calls are those of src/sha256.rs:187 and src/salsa20.rs:164. -/
abbrev C (α : Type) := StateT Nat (Except Panic) α

/-- One more counted call. The counted calls are those of src/sha256.rs:187 and src/salsa20.rs:164. -/
def tick : C Unit := fun k => .ok ((), k + 1)

/-- A computation without counted calls. As e.g. src/sha256.rs:289-290. -/
def free {α : Type} (m : M α) : C α := fun k => m.map fun a => (a, k)

/-- `for x in xs { body }`. As in src/sha256.rs:285. -/
def forEach {α σ : Type} (xs : List α) (s : σ) (body : α → σ → C σ) : C σ :=
  xs.foldlM (fun s x => body x s) s

/-- `for i in lo..hi { body }`. As in src/scrypt.rs:201. -/
def forRange {σ : Type} (lo hi : Nat) (s : σ) (body : Nat → σ → C σ) : C σ :=
  forEach (List.range' lo (hi - lo)) s body

/-- `for i in lo..=hi { body }`. As in src/pbkdf2.rs:86 and 96. -/
def forRangeIncl {σ : Type} (lo hi : Nat) (s : σ) (body : Nat → σ → C σ) : C σ :=
  forRange lo (hi + 1) s body

/-- `process_block` (src/sha256.rs:187-280), counted -/
def process_block (self : SHA256) (block : Vector U32 16) : C SHA256 := do
  tick
  free (self.process_block block)

/-- src/sha256.rs:285-298 -/
def updateByte (T : Target) (b : U8) (st : SHA256 × Vector U32 16) : C (SHA256 × Vector U32 16) := do
  let (self, block) := st
  let off := self.length % Sha256.BLOCK_SIZE
  let buffer ← free (vupd self.buffer off b)
  let length ← free (T.add self.length 1)
  let self := { self with buffer := buffer, length := length }
  if self.length % Sha256.BLOCK_SIZE ≠ 0 then
    return (self, block)
  let block ← free (fill_block self.buffer block)
  let self ← process_block self block
  return (self, block)

/-- src/sha256.rs:282-299 -/
def update (T : Target) (self : SHA256) (data : List U8) : C SHA256 := do
  let (self, _) ← forEach data (self, Vector.replicate 16 (0 : U32)) (updateByte T)
  return self

/-- src/sha256.rs:304-372 -/
def digest (T : Target) (self : SHA256) : C (SHA256 × Vector U8 32) := do
  let block : Vector U32 16 := Vector.replicate 16 0
  let off := self.length % Sha256.BLOCK_SIZE
  -- (b)
  let buffer ← free (Verif.forRange off 64 self.buffer fun i buffer => vupd buffer i 0)
  let self := { self with buffer := buffer }
  let has_overflow := off + 9 > Sha256.BLOCK_SIZE
  let (self, block, off) ← (if has_overflow then do
      -- (a)
      let v ← free (vidx self.buffer off)
      let buffer ← free (vupd self.buffer off (v ||| 0x80))
      let self := { self with buffer := buffer }
      let block ← free (fill_block self.buffer block)
      let self ← process_block self block
      return ({ self with buffer := Vector.replicate 64 0 }, block, 0)
    else
      return (self, block, off) : C (SHA256 × Vector U32 16 × Nat))
  -- (c)
  let len_off := 64 - 8
  let bitlen ← free (T.mul self.length 8)
  let buffer ← free (write_u64_be self.buffer len_off (BitVec.ofNat 64 bitlen))
  let self := { self with buffer := buffer }
  -- (a)
  let self ← free (if ¬ has_overflow then do
      let v ← vidx self.buffer off
      let buffer ← vupd self.buffer off (v ||| 0x80)
      return { self with buffer := buffer }
    else
      return self : M SHA256)
  let block ← free (fill_block self.buffer block)
  let self ← process_block self block
  let out ← free (SHA256.output self.h)
  return (self, out)

/-- src/hmac.rs:80-98 -/
def hmacNewShort (T : Target) (key : List U8) : C HMac := do
  let block ← free (copyFromSlice (List.replicate Sha256.BLOCK_SIZE (0 : U8)) 0 key.length key)
  let inner := SHA256.new
  let outer := SHA256.new
  let block := block.map (fun elem => elem ^^^ 0x36)
  let inner ← update T inner block
  let block := block.map (fun elem => elem ^^^ (0x36 ^^^ 0x5c))
  let outer ← update T outer block
  return { inner, outer }

/-- src/hmac.rs:46-99 -/
def hmacNew (T : Target) (key : List U8) : C HMac :=
  if key.length > Sha256.BLOCK_SIZE then do
    let tmp := SHA256.new
    let tmp ← update T tmp key
    let (_, d) ← digest T tmp
    hmacNewShort T d.toList
  else
    hmacNewShort T key

/-- src/hmac.rs:104-106 -/
def hmacUpdate (T : Target) (self : HMac) (data : List U8) : C HMac := do
  let inner ← update T self.inner data
  return { self with inner }

/-- src/hmac.rs:111-114 -/
def hmacDigest (T : Target) (self : HMac) : C (HMac × Vector U8 32) := do
  let (inner, d) ← digest T self.inner
  let outer ← update T self.outer d.toList
  let (outer, out) ← digest T outer
  return ({ inner, outer }, out)

/-- src/pbkdf2.rs:87-106 -/
def derive_block (T : Target) (password salt : List U8) (c i : Nat) : C (Vector U8 32) := do
  let ctr : List U8 := [BitVec.ofNat 8 (i >>> 24), BitVec.ofNat 8 (i >>> 16), BitVec.ofNat 8 (i >>> 8), BitVec.ofNat 8 i]
  let hmac ← hmacNew T password
  let hmac ← hmacUpdate T hmac salt
  let hmac ← hmacUpdate T hmac ctr
  let (_, u) ← hmacDigest T hmac
  let t := u
  let (_, t) ← forRangeIncl 2 c (u, t) fun _j (u, t) => do
    let hmac ← hmacNew T password
    let hmac ← hmacUpdate T hmac u.toList
    let (_, u) ← hmacDigest T hmac
    let t ← free (xorInto t u)
    return (u, t)
  return t

/-- src/pbkdf2.rs:32-113 -/
def pbkdf2_sha256 (T : Target) (password salt : List U8) (c : Nat) (out : List U8) : C (List U8) := do
  let l := (← free (T.sub (← free (T.add out.length DIGEST_SIZE)) 1)) / DIGEST_SIZE
  forRangeIncl 1 l out fun i out => do
    let t ← derive_block T password salt c i
    let start ← free (T.mul (← free (T.sub i 1)) DIGEST_SIZE)
    let endm ← free (T.mul i DIGEST_SIZE)
    let «end» := min endm out.length
    let src ← free (slice t.toList 0 (← free (T.sub «end» start)))
    free (copyFromSlice out start «end» src)

/-- `salsa20` (src/salsa20.rs), counted -/
def salsa20 (input : List U8) (rounds : Nat) (output : List U8) : C (List U8) := do
  tick
  free (Salsa20.salsa20 input rounds output)

/-- src/scrypt.rs:142-146 -/
def mixLoop (b : List Scrypt.Block) (x : Scrypt.Block) : C (Scrypt.Block × List Scrypt.Block) :=
  forEach b (x, []) fun b_elem (x, y) => do
    let t := block_xor x b_elem
    let x ← salsa20 t SALSA_ROUNDS x
    return (x, y ++ [x])

/-- src/scrypt.rs:107-160 -/
def block_mix (T : Target) (self : Scrypt) (b : List Scrypt.Block) : C (List Scrypt.Block) := do
  let x ← free (idx b (← free (T.sub (← free (T.mul 2 self.r)) 1)))
  free (T.reserve T.vecSize (← free (T.mul 2 self.r)))
  let (_, y) ← mixLoop b x
  free (T.reserve T.vecSize (← free (T.mul 2 self.r)))
  free (T.reserve T.vecSize self.r)
  return Scrypt.shuffle y

/-- src/scrypt.rs:162-219 -/
def ro_mix (T : Target) (self : Scrypt) (b : List Scrypt.Block) : C (List Scrypt.Block) := do
  let x := b
  free (T.reserve T.vecSize self.n)
  let (v, x) ← forRange 0 self.n (([] : List (List Scrypt.Block)), x) fun _i (v, x) => do
    let t ← block_mix T self x
    return (v ++ [x], t)
  forRange 0 self.n x fun _i x => do
    let j ← free (T.rem ((← free (integerify T x)).toNat % 2 ^ T.bits) self.n)
    let vj ← free (idx v j)
    let t := List.zipWith (fun x_block v_block => block_xor x_block v_block) x vj
    block_mix T self t

/-- src/scrypt.rs:224-300; the calls of PBKDF2 contain no Salsa20. -/
def derive (T : Target) (self : Scrypt) (passphrase salt out : List U8) :
    C (List U8 × Except ScryptError Unit) := do
  if self.r < 1 then
    return (out, .error .RIsTooSmall)
  if self.n < 1 then
    return (out, .error .NIsTooSmall)
  if ((← free (T.sub self.n 1)) &&& self.n) ≠ 0 then
    return (out, .error .NIsNotAPowerOfTwo)
  if self.p < 1 then
    return (out, .error .PIsTooSmall)
  let size ← free (T.mul (← free (T.mul (← free (T.mul self.p 2)) Scrypt.BLOCK_SIZE)) self.r)
  free (T.reserve 1 size)
  let raw_b := List.replicate size (0 : U8)
  let raw_b ← free (Pbkdf2.pbkdf2_sha256 T passphrase salt PBKDF2_ROUNDS raw_b)
  let chunk_size ← free (T.mul (2 * Scrypt.BLOCK_SIZE) self.r)
  let lanes ← free (chunksExact raw_b chunk_size)
  let b ← free (lanes.mapM (fun chunk => chunksExact chunk Scrypt.BLOCK_SIZE))
  let b ← b.mapM (fun elem => ro_mix T self elem)
  let b_salt := b.flatten.flatten
  let out ← free (Pbkdf2.pbkdf2_sha256 T passphrase b_salt PBKDF2_ROUNDS out)
  return (out, .ok ())

end Verif.Counted
