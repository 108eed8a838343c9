/-
The fragment of Rust semantics the model is written in: panics, `usize` arithmetic on 32- and
64-bit targets with and without overflow checks, checked indexing and slicing, and loops.
Nothing in this file models a particular line of `/repo`; it is part of the trusted reading of Rust. The comments name lines where the
construct occurs.
-/

namespace Verif

/-- `u8`: the octets of every input and output, e.g. `data: &[u8]` (src/sha256.rs:282). -/
abbrev U8 := BitVec 8
/-- `u32`: the words of SHA-256 (src/sha256.rs:103-109), Salsa20 (src/salsa20.rs:16-29) and the AES keys (src/aes.rs:112). -/
abbrev U32 := BitVec 32
/-- `u64`: the message length (src/sha256.rs:354) and `integerify` (src/scrypt.rs:77-89). -/
abbrev U64 := BitVec 64

/-- The reasons for which a modelled operation can panic.
No line of `/repo` names them, except `.explicit` (src/common.rs:20): they come from indexing, e.g. src/aes.rs:129, from arithmetic, e.g.
src/sha256.rs:290, and from the standard library. -/
inductive Panic where
  /-- `attempt to add / subtract / multiply with overflow` -/
  | overflow
  /-- index or slice bounds violated -/
  | index
  /-- `copy_from_slice` on slices of different lengths -/
  | sliceLen
  /-- `attempt to calculate the remainder with a divisor of zero` -/
  | remZero
  /-- `attempt to divide by zero` -/
  | divZero
  /-- `chunk size must be non-zero` -/
  | zeroChunk
  /-- `capacity overflow` -/
  | capacity
  /-- `panic!()` -/
  | explicit
deriving DecidableEq, Repr

/-- A computation that returns a value or panics.
Every function of `/repo` that can panic returns one, e.g. `update` (src/sha256.rs:282-300). -/
abbrev M (α : Type) := Except Panic α

deriving instance DecidableEq for Except

/-- Pointer widths of the targets the crate compiles for (`i >> 24` on a `usize` needs at least 32 bits). The shift is in src/pbkdf2.rs:87. -/
inductive Width where
  | w32
  | w64
deriving DecidableEq, Repr

/-- The number of bits of `usize`, as it matters in src/sha256.rs:354 and src/scrypt.rs:209. -/
def Width.bits : Width → Nat
  | .w32 => 32
  | .w64 => 64

/-- A compilation target: pointer width, and whether overflow checks are compiled in
(`true` in the debug profile, `false` in the release profile). `/repo/Cargo.toml` sets neither. -/
structure Target where
  width : Width
  checks : Bool
deriving DecidableEq, Repr

namespace Target

/-- `usize::BITS`. It matters in src/sha256.rs:354 and src/scrypt.rs:209. -/
def bits (T : Target) : Nat := T.width.bits

/-- `isize::MAX`. The limit for the vectors made in src/aes.rs:117, src/pkcs7.rs:19, src/scrypt.rs:140, 149, 150, 200 and 279. -/
def isizeMax (T : Target) : Nat := 2 ^ (T.bits - 1) - 1

/-- `a + b` on `usize`. As in src/sha256.rs:290 and src/pbkdf2.rs:55. -/
def add (T : Target) (a b : Nat) : M Nat :=
  if a + b < 2 ^ T.bits then .ok (a + b)
  else if T.checks then .error .overflow
  else .ok ((a + b) % 2 ^ T.bits)

/-- `a * b` on `usize`. As in src/sha256.rs:354, src/pbkdf2.rs:109 and src/scrypt.rs:279. -/
def mul (T : Target) (a b : Nat) : M Nat :=
  if a * b < 2 ^ T.bits then .ok (a * b)
  else if T.checks then .error .overflow
  else .ok ((a * b) % 2 ^ T.bits)

/-- `a - b` on `usize`. As in src/aes.rs:149, src/pkcs7.rs:33 and src/scrypt.rs:137. -/
def sub (T : Target) (a b : Nat) : M Nat :=
  if b ≤ a then .ok (a - b)
  else if T.checks then .error .overflow
  else .ok (a + 2 ^ T.bits - b)

/-- `a % b` on `usize`. As in src/aes.rs:150, src/pkcs7.rs:32 and src/scrypt.rs:209. -/
def rem (_T : Target) (a b : Nat) : M Nat :=
  if b = 0 then .error .remZero else .ok (a % b)

/-- `Vec::with_capacity(n)` / `vec![_; n]` for elements of `size` bytes: panics with
`capacity overflow` when more than `isize::MAX` bytes are requested. (Allocation failure below that
limit aborts the process and is not modelled.). As in src/scrypt.rs:140, 149, 150, 200 and 279. -/
def reserve (T : Target) (size n : Nat) : M Unit :=
  if n * size ≤ T.isizeMax then .ok () else .error .capacity

/-- `size_of::<Vec<_>>()`: three machine words. `Block` is a `Vec<u8>` (src/scrypt.rs:20). -/
def vecSize (T : Target) : Nat := 3 * (T.bits / 8)

end Target

/-- `xs[i]` on a slice or `Vec`. As in src/aes.rs:129-132 and src/scrypt.rs:81-88. -/
def idx {α : Type} (xs : List α) (i : Nat) : M α :=
  match xs[i]? with
  | some x => .ok x
  | none => .error .index

/-- `xs[i] = x` on a slice or `Vec`. As in src/salsa20.rs:134-137. -/
def upd {α : Type} (xs : List α) (i : Nat) (x : α) : M (List α) :=
  if i < xs.length then .ok (xs.set i x) else .error .index

/-- `v[i]` on an array. As in src/aes.rs:151 and src/pbkdf2.rs:104. -/
def vidx {α : Type} {n : Nat} (v : Vector α n) (i : Nat) : M α :=
  if h : i < n then .ok v[i] else .error .index

/-- `v[i] = x` on an array. As in src/sha256.rs:289 and src/pbkdf2.rs:104. -/
def vupd {α : Type} {n : Nat} (v : Vector α n) (i : Nat) (x : α) : M (Vector α n) :=
  if h : i < n then .ok (v.set i x) else .error .index

/-- `&xs[a..b]`. As in src/aes.rs:366 and src/salsa20.rs:191. -/
def slice {α : Type} (xs : List α) (a b : Nat) : M (List α) :=
  if a ≤ b ∧ b ≤ xs.length then .ok ((xs.take b).drop a) else .error .index

/-- `&xs[a..]`. As in src/aes.rs:371, src/pkcs7.rs:135 and src/scrypt.rs:79. -/
def sliceFrom {α : Type} (xs : List α) (a : Nat) : M (List α) :=
  if a ≤ xs.length then .ok (xs.drop a) else .error .index

/-- `xs[a..b].copy_from_slice(src)`. As in src/hmac.rs:85 and src/pbkdf2.rs:111. -/
def copyFromSlice {α : Type} (xs : List α) (a b : Nat) (src : List α) : M (List α) :=
  if a ≤ b ∧ b ≤ xs.length then
    if src.length = b - a then .ok (xs.take a ++ src ++ xs.drop b) else .error .sliceLen
  else .error .index

/-- `let mut arr = [0; n]; arr.copy_from_slice(src)`. As in src/aes_cbc.rs:89 and 198. -/
def arrayFromSlice {α : Type} (n : Nat) (src : List α) : M (Vector α n) :=
  if h : src.length = n then .ok ⟨src.toArray, by simpa using h⟩ else .error .sliceLen

/-- The first `k` consecutive pieces of `n` elements (the last one may be shorter).
For `chunks` and `chunks_exact` (src/aes_cbc.rs:74, src/scrypt.rs:283). -/
def chunksAux {α : Type} : Nat → Nat → List α → List (List α)
  | 0, _, _ => []
  | k + 1, n, xs => xs.take n :: chunksAux k n (xs.drop n)

/-- `xs.chunks(n)` collected. As in src/aes_cbc.rs:74 and 196. -/
def chunks {α : Type} (xs : List α) (n : Nat) : M (List (List α)) :=
  if n = 0 then .error .zeroChunk else .ok (chunksAux ((xs.length + n - 1) / n) n xs)

/-- `xs.chunks_exact(n)` collected. As in src/scrypt.rs:283 and 286. -/
def chunksExact {α : Type} (xs : List α) (n : Nat) : M (List (List α)) :=
  if n = 0 then .error .zeroChunk else .ok (chunksAux (xs.length / n) n xs)

/-- `for x in xs { body }` where `σ` holds the variables the body assigns. As in src/sha256.rs:285 and src/scrypt.rs:142. -/
def forEach {α σ : Type} (xs : List α) (s : σ) (body : α → σ → M σ) : M σ :=
  xs.foldlM (fun s x => body x s) s

/-- `for i in lo..hi { body }`. As in src/sha256.rs:207, src/aes.rs:362 and src/scrypt.rs:201. -/
def forRange {σ : Type} (lo hi : Nat) (s : σ) (body : Nat → σ → M σ) : M σ :=
  forEach (List.range' lo (hi - lo)) s body

/-- `for i in lo..=hi { body }`. As in src/pbkdf2.rs:86 and 96. -/
def forRangeIncl {σ : Type} (lo hi : Nat) (s : σ) (body : Nat → σ → M σ) : M σ :=
  forRange lo (hi + 1) s body

/-- `for i in (lo..hi).rev() { body }`. As in src/aes.rs:390. -/
def forRangeRev {σ : Type} (lo hi : Nat) (s : σ) (body : Nat → σ → M σ) : M σ :=
  forEach (List.range' lo (hi - lo)).reverse s body

end Verif
