import Verif.Spec.KeyGames

/-
HMAC-SHA-256 built from the compression function of SHA-256, and distinguishers of the compression function from a random function.
A chaining value is written as 32 octets.
-/

namespace Spec.PrfGames
open Spec Spec.KeyGames Spec.Sha256
open Spec.Games (avg)

/-- How well the distinguisher tells the functions `f a`, `a` being uniformly random, from a random function. -/
def against {α : Type} [Fintype α] (f : α → List Byte → Digest) (d : Distinguisher) : ℚ := |(avg fun a => d.run (f a)) - d.random []|

/-- The octets of a chaining value. -/
def octets (h : State) : Digest := List.Vector.ofFn fun i => (output h).getD i 0

/-- The chaining value with these octets. -/
def words (d : Digest) : State := Vector.ofFn fun i : Fin 8 => be32At d.toList (4 * i)

/-- The compression function of SHA-256. The chaining value takes the part of a key; the function maps blocks of 64 octets to the next
chaining value. -/
def compression (key : Digest) (block : List Byte) : Digest := octets (compress (words key) (blockWord block 0))

/-- The compression function for one block after the other. -/
def cascade (key : Digest) (blocks : List (List Byte)) : Digest := blocks.foldl compression key

/-- The first `n` blocks of 64 octets. -/
def cut : (n : Nat) → List Byte → List (List Byte)
  | 0, _ => []
  | n + 1, s => s.take 64 :: cut n (s.drop 64)

/-- The blocks of a message that SHA-256 hashes after one other block. -/
def blocksAfter (m : List Byte) : List (List Byte) :=
  let s := m ++ padding (64 + m.length) (8 * (64 + m.length))
  cut (s.length / 64) s

/-- The one block that SHA-256 hashes if a message of 32 octets follows one other block. -/
def lastBlock (d : Digest) : List Byte := d.toList ++ padding 96 (8 * 96)

/-- HMAC-SHA-256 after the key: `k` is the chaining value after the key combined with `ipad`, `k'` the one after the key combined
with `opad`. -/
def nested (k k' : Digest) (m : List Byte) : Digest := compression k' (lastBlock (cascade k (blocksAfter m)))

/-- The two chaining values of the key `key`. -/
def innerKey (key : List Byte) : Digest := compression (octets initial) ((hmacKey sha256 key).map (· ^^^ 0x36))
def outerKey (key : List Byte) : Digest := compression (octets initial) ((hmacKey sha256 key).map (· ^^^ 0x5c))

/-- How well `test` tells the two chaining values of the key `secret a`, `a` being uniformly random, from two random ones. -/
def pairAdvantage {α : Type} [Fintype α] (secret : α → List Byte) (test : Digest → Digest → ℚ) : ℚ :=
  |(avg fun a => test (innerKey (secret a)) (outerKey (secret a))) - avg fun k => avg fun k' => test k k'|

/-- The distinguisher that runs `d` and asks for the value at `g x` when `d` asks for the value at `x`. -/
def through (g : List Byte → List Byte) : Distinguisher → Distinguisher
  | .answer yes => .answer yes
  | .query x next => .query (g x) fun y => through g (next y)

/-- The distinguisher of the compression function made of one of HMAC; it draws the chaining value `k` itself. -/
def outer (k : Digest) (d : Distinguisher) : Distinguisher := through (fun m => lastBlock (cascade k (blocksAfter m))) d

/-! ### Four kinds of distinguishers of the compression function, with one or two questions -/

/-- Continue from the value at `x` with `xs` and with `ys`: is the result the same? -/
def same (x : List Byte) (xs ys : List (List Byte)) : Distinguisher :=
  .query x fun u => .answer (cascade u xs = cascade u ys)

/-- Continue from the value at `x` with `xs`, and from the value at `y` with `ys`: is the result the same? -/
def differ (x y : List Byte) (xs ys : List (List Byte)) : Distinguisher :=
  .query x fun u => .query y fun v => .answer (cascade u xs = cascade v ys)

/-- Continue from the value at `x` with `xs`: is the result `t`? -/
def reach (x : List Byte) (xs : List (List Byte)) (t : Digest) : Distinguisher :=
  .query x fun u => .answer (cascade u xs = t)

/-- Some block that is not `x`. -/
def other (x : List Byte) : List Byte := if x = List.replicate 64 0 then List.replicate 64 1 else List.replicate 64 0

/-- Continue from the value at `x` with `xs`: is the result the key? That is tested with another block. -/
def itself (x : List Byte) (xs : List (List Byte)) : Distinguisher :=
  .query x fun u => .query (other x) fun v => .answer (v = compression (cascade u xs) (other x))

/-- The sum of the advantages of the distinguishers that ask, for the end of `xs` after each block, whether it leads to `t`. -/
def reachLoss : (xs : List (List Byte)) → (t : Digest) → ℚ
  | [], _ => 0
  | x :: xs, t => against compression (reach x xs t) + reachLoss xs t

/-- The sum of the advantages of the distinguishers that two sequences of blocks give rise to: one for every block that they begin with in
common; then, if both go on, one for the two first different blocks and one for every further block of the first sequence (in the mean
over a random chaining value for the second); or else one for the rest of the longer sequence. -/
def loss : (xs ys : List (List Byte)) → ℚ
  | [], [] => 0
  | [], y :: ys => against compression (itself y ys)
  | x :: xs, [] => against compression (itself x xs)
  | x :: xs, y :: ys =>
    if x = y then against compression (same x xs ys) + loss xs ys
    else against compression (differ x y xs ys) + avg fun z : Digest => reachLoss xs (cascade z ys)

/-- The mean, over random answers, of the sum of `w m m'` over all pairs of different messages that the distinguisher asks for. `known` are
the answers so far. -/
def pairs (w : List Byte → List Byte → ℚ) : (known : List (List Byte × Digest)) → Distinguisher → ℚ
  | _, .answer _ => 0
  | known, .query x next => match known.lookup x with
    | some y => pairs w known (next y)
    | none => (known.map fun p => w p.1 x).sum + avg fun y : Digest => pairs w ((x, y) :: known) (next y)

/-- The bound for a distinguisher `d` of HMAC with `n` questions: how well `d`, which computes the rest by itself, tells the two chaining values
of the key from two random ones; the advantage of `outer k d` for the compression function, in the mean over `k`; `n * (n - 1) / 2 ^ 257`; and
the advantages listed in `loss` for the pairs of messages that `d` asks for. -/
def hmacBound {α : Type} [Fintype α] (secret : α → List Byte) (n : Nat) (d : Distinguisher) : ℚ :=
  pairAdvantage secret (fun k k' => d.run (nested k k')) + (avg fun k => against compression (outer k d)) +
    n * (n - 1) / 2 ^ 257 + pairs (fun m m' => loss (blocksAfter m) (blocksAfter m')) [] d

/-- All messages that it asks for satisfy `ok`, and it asks for at most `n` values. -/
def Asks (ok : List Byte → Prop) : Nat → Distinguisher → Prop
  | _, .answer _ => True
  | n, .query x next => ok x ∧ 1 ≤ n ∧ ∀ y, Asks ok (n - 1) (next y)

end Spec.PrfGames
