import Verif.Model.Growing

/-!
The model of `/repo/src/scrypt.rs` once more, with the heap. Every vector takes memory when it is made and gives it back when it goes out of scope, and
the heap remembers how much was taken at most. SHA-256, HMAC, PBKDF2 and the Salsa20 core have arrays and slices only, and take nothing. The sizes are
those that the program asks for: what an allocator adds is not counted. When a call panics the heap is not looked at any more.
-/

namespace Verif.Heap
open Verif Verif.Scrypt Verif.Growing

/-- The heap: how many bytes are taken, and how many were taken at most.
No line of `/repo`: what the vectors of src/scrypt.rs, src/pkcs7.rs and src/aes_cbc.rs use. -/
structure Heap where
  live : Int
  peak : Int

/-- A computation that returns or panics, and uses the heap. Such as `derive` (src/scrypt.rs:224-302). -/
abbrev H (α : Type) := StateT Heap (Except Panic) α

/-- Takes `n` bytes. As a vector does that is made, e.g. in src/scrypt.rs:140. -/
def take (n : Nat) : H Unit := fun h => .ok ((), ⟨h.live + n, max h.peak (h.live + n)⟩)

/-- Gives `n` bytes back. As a vector does at the end of its scope, e.g. `t` in src/scrypt.rs:146. -/
def give (n : Nat) : H Unit := fun h => .ok ((), ⟨h.live - n, h.peak⟩)

/-- A computation that does not use the heap. As e.g. `pbkdf2_sha256` (src/scrypt.rs:280). -/
def lift {α : Type} (m : M α) : H α := fun h => m.map fun a => (a, h)

/-- `for x in xs { body }`. As in src/scrypt.rs:142. -/
def forEach {α σ : Type} (xs : List α) (s : σ) (body : α → σ → H σ) : H σ :=
  xs.foldlM (fun s x => body x s) s

/-- `for i in lo..hi { body }`. As in src/scrypt.rs:201. -/
def forRange {σ : Type} (lo hi : Nat) (s : σ) (body : Nat → σ → H σ) : H σ :=
  forEach (List.range' lo (hi - lo)) s body

/-- The bytes that a `Vec<Block>` holds, with its capacity equal to its length, and the blocks in it as well: a header for each block, and
its octets. As `b` in src/scrypt.rs:107. -/
def bytes (T : Target) (b : List Block) : Nat := b.length * T.vecSize + (b.map List.length).sum

/-- The same for a `Vec<Vec<Block>>`. As `v` in src/scrypt.rs:200. -/
def bytes2 (T : Target) (b : List (List Block)) : Nat := b.length * T.vecSize + (b.map (bytes T)).sum

/-- src/scrypt.rs:73-75. The iterator knows its length. -/
def block_xor (a b : List U8) : H Block := do
  let result := Scrypt.block_xor a b
  take result.length
  return result

/-- Step 2 of `block_mix` (src/scrypt.rs:142-146). `y` has the capacity it needs, because `b` has `2 * r` elements; `x.clone()` takes as much
as `x` holds; `t` goes at the end of the body. -/
def mixLoop (b : List Block) (x : Block) : H (Block × List Block) :=
  forEach b (x, []) fun b_elem (x, y) => do
    let t ← block_xor x b_elem
    let x ← lift (Salsa20.salsa20 t SALSA_ROUNDS x)
    take x.length
    give t.length
    return (x, y ++ [x])

/-- src/scrypt.rs:107-160. The loop of step 3 moves the blocks of `y`, and at its end the memory of `y` itself goes. `bs_head` has the capacity for
all blocks. At the end `bs_tail` and `x` go. -/
def block_mix (T : Target) (self : Scrypt) (b : List Block) : H (List Block) := do
  -- Step 1
  let x ← lift do idx b (← T.sub (← T.mul 2 self.r) 1)
  take x.length
  -- Step 2
  lift do T.reserve T.vecSize (← T.mul 2 self.r)
  take (2 * self.r * T.vecSize)
  let (x, y) ← mixLoop b x
  -- Step 3
  lift do T.reserve T.vecSize (← T.mul 2 self.r)
  take (2 * self.r * T.vecSize)
  lift (T.reserve T.vecSize self.r)
  take (self.r * T.vecSize)
  let result := Scrypt.shuffle y
  give (2 * self.r * T.vecSize)
  give (self.r * T.vecSize)
  give x.length
  return result

/-- src/scrypt.rs:162-219. In step 2 the vectors move into `v`. In step 3 the assignment drops what `x` was, and `t` goes at the end of the
body; the iterator for `t` knows its length. At the end `v` goes. -/
def ro_mix (T : Target) (self : Scrypt) (b : List Block) : H (List Block) := do
  -- Step 1
  let x := b
  -- Step 2
  lift (T.reserve T.vecSize self.n)
  take (self.n * T.vecSize)
  let (v, x) ← forRange 0 self.n (([] : List (List Block)), x) fun _i (v, x) => do
    let t ← block_mix T self x
    return (v ++ [x], t)
  -- Step 3
  let x ← forRange 0 self.n x fun _i x => do
    let j ← lift do T.rem ((← integerify T x).toNat % 2 ^ T.bits) self.n
    let vj ← lift (idx v j)
    let t := List.zipWith (fun x_block v_block => Scrypt.block_xor x_block v_block) x vj
    take (bytes T t)
    let x' ← block_mix T self t
    give (bytes T x)
    give (bytes T t)
    return x'
  give (bytes2 T v)
  return x

/-- The octets of a block, each with what goes when the iterator is past it: after the last octet the block, and `more`.
The inner `flatten` of src/scrypt.rs:296. -/
def blockOctets (more : Nat) (block : Block) : List (U8 × Nat) :=
  block.zipIdx.map fun (x, i) => (x, if i + 1 = block.length then block.length + more else 0)

/-- The octets of a lane: after the last one also the memory of the lane, and `more`. The outer `flatten` of src/scrypt.rs:296. -/
def laneOctets (T : Target) (more : Nat) (lane : List Block) : List (U8 × Nat) :=
  lane.zipIdx.flatMap fun (block, i) => blockOctets (if i + 1 = lane.length then lane.length * T.vecSize + more else 0) block

/-- What `b.into_iter().flatten().flatten()` gives, octet by octet, with what goes when it is past them. src/scrypt.rs:296. -/
def octets (T : Target) (b : List (List Block)) : List (U8 × Nat) :=
  b.zipIdx.flatMap fun (lane, i) => laneOctets T (if i + 1 = b.length then b.length * T.vecSize else 0) lane

/-- The rest of `collect()`. A vector that grows takes the new memory before it gives the old back. Under src/scrypt.rs:296. -/
def extend (T : Target) (G : Policy) (lower : Nat → Nat) : VecU8 → List (U8 × Nat) → H VecU8
  | v, [] => return v
  | v, (x, gone) :: xs => do
    let v' ← lift (if v.data.length = v.cap then v.reserve T G (lower xs.length + 1) else pure v)
    if v'.cap ≠ v.cap then
      take v'.cap
      give v.cap
    give gone
    extend T G lower { v' with data := v'.data ++ [x] } xs

/-- `iter.collect::<Vec<u8>>()` for an iterator that does not know its length. As in src/scrypt.rs:296. -/
def collect (T : Target) (G : Policy) (lower : Nat → Nat) : List (U8 × Nat) → H VecU8
  | [] => return ⟨[], 0⟩
  | (x, gone) :: xs => do
    lift (T.reserve 1 (max 8 (lower xs.length + 1)))
    take (max 8 (lower xs.length + 1))
    give gone
    extend T G lower ⟨[x], max 8 (lower xs.length + 1)⟩ xs

/-- src/scrypt.rs:224-300. `inPlace` says whether `b.into_iter().map(..).collect()` (src/scrypt.rs:293) uses the memory of `b` for the result, as newer
standard libraries do, or takes new memory and gives that of `b` back at the end. -/
def derive (T : Target) (G : Policy) (lower : Nat → Nat) (inPlace : Bool) (self : Scrypt) (passphrase salt out : List U8) :
    H (List U8 × Except ScryptError Unit) := do
  if self.r < 1 then
    return (out, .error .RIsTooSmall)
  if self.n < 1 then
    return (out, .error .NIsTooSmall)
  if ((← lift (T.sub self.n 1)) &&& self.n) ≠ 0 then
    return (out, .error .NIsNotAPowerOfTwo)
  if self.p < 1 then
    return (out, .error .PIsTooSmall)
  -- Step 1
  let size ← lift do T.mul (← T.mul (← T.mul self.p 2) BLOCK_SIZE) self.r
  lift (T.reserve 1 size)
  take size
  let raw_b ← lift (Pbkdf2.pbkdf2_sha256 T passphrase salt PBKDF2_ROUNDS (List.replicate size (0 : U8)))
  let b ← lift do (← chunksExact raw_b (← T.mul (2 * BLOCK_SIZE) self.r)).mapM (fun chunk => chunksExact chunk BLOCK_SIZE)
  take (bytes2 T b)
  -- Step 2
  let buffer := if inPlace then 0 else b.length * T.vecSize
  take buffer
  let b ← b.mapM (fun elem => ro_mix T self elem)
  give buffer
  -- Step 3
  let b_salt ← collect T G lower (octets T b)
  let out ← lift (Pbkdf2.pbkdf2_sha256 T passphrase b_salt.data PBKDF2_ROUNDS out)
  give b_salt.cap
  give size
  return (out, .ok ())

end Verif.Heap
