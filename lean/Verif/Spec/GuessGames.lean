import Verif.Spec.KeyGames

/-
Attackers that have keys derived by PBKDF2 from the passwords of several users and try passwords. A keyed function from messages to digests
stands in the place of HMAC, and every evaluation of it is counted: those of the attacker and those of PBKDF2. The key of the function is the
block of 64 octets that HMAC makes of a password.
-/

namespace Spec.GuessGames
open Spec Spec.Games
open Spec.KeyGames (Digest count)

/-- An algorithm that evaluates a keyed function, one evaluation after the other, and gives a result in the end. -/
inductive Algorithm (β : Type) where
  | result (b : β)
  | eval (key x : List Byte) (next : (y : Digest) → Algorithm β)

/-- The result when the function is `F`. -/
def Algorithm.run {β : Type} (F : (key x : List Byte) → Digest) : Algorithm β → β
  | .result b => b
  | .eval key x next => (next (F key x)).run F

/-- The probability that the result satisfies `good` when the function is random: every value is drawn uniformly when it is needed first, for
every key and every message anew, and `known` has the values drawn so far. -/
def Algorithm.random {β : Type} (good : β → Bool) : (known : List ((List Byte × List Byte) × Digest)) → Algorithm β → ℚ
  | _, .result b => if good b then 1 else 0
  | known, .eval key x next => match known.lookup (key, x) with
    | some y => (next y).random good known
    | none => avg fun y : Digest => (next y).random good (((key, x), y) :: known)

/-- There are at most `n` evaluations. -/
def Algorithm.Within {β : Type} : Nat → Algorithm β → Prop
  | _, .result _ => True
  | n, .eval _ _ next => 1 ≤ n ∧ ∀ y, (next y).Within (n - 1)

/-- HMAC-SHA-256 after its key has been brought to 64 octets. -/
def hmacWithBlock (block x : List Byte) : Digest :=
  List.Vector.ofFn fun i =>
    (Sha256.sha256 (block.map (· ^^^ 0x5c) ++ Sha256.sha256 (block.map (· ^^^ 0x36) ++ x))).getD i 0

/-- The block that HMAC makes of a password. -/
def blockOf (password : List Byte) : List Byte := hmacKey Sha256.sha256 password

/-- What is derived for a user: with which salt, how many iterations, how many octets. -/
structure Request where
  salt : List Byte
  c : Nat
  len : Nat

/-- `c` iterations, the first one on the message `x`, summed to `acc`; then what `k` makes of the sum. -/
def iterate {β : Type} (key : List Byte) : (c : Nat) → (x : List Byte) → (acc : Digest) → (Digest → Algorithm β) → Algorithm β
  | 0, _, acc, k => k acc
  | c + 1, x, acc, k => .eval key x fun y => iterate key c y.toList (List.Vector.map₂ (· ^^^ ·) acc y) k

/-- `l` blocks of PBKDF2 after the first `i` blocks; then what `k` makes of them. -/
def blocks {β : Type} (key salt : List Byte) (c : Nat) : (i l : Nat) → (List Byte → Algorithm β) → Algorithm β
  | _, 0, k => k []
  | i, l + 1, k => iterate key c (salt ++ beBytes 4 (i + 1)) (List.Vector.replicate 32 0) fun t =>
      blocks key salt c (i + 1) l fun rest => k (t.toList ++ rest)

/-- One key for each user, the first one being the user number `u`; then what `k` makes of the keys. `key u` is the block of the password of
user number `u`. -/
def derive {β : Type} (key : (u : Nat) → List Byte) : (u : Nat) → List Request → (List (List Byte) → Algorithm β) → Algorithm β
  | _, [], k => k []
  | u, r :: rs, k => blocks (key u) r.salt r.c 0 (count r.len) fun t => derive key (u + 1) rs fun keys => k (t.take r.len :: keys)

/-- The probability that the result of the attacker satisfies `good` when it is given the keys derived for all users, and the function is
random. -/
def real {β : Type} (rs : List Request) (key : (u : Nat) → List Byte) (good : β → Bool) (a : List (List Byte) → Algorithm β) : ℚ :=
  (derive key 0 rs a).random good []

/-- The mean of what `k` makes of uniformly random keys of the same sizes. -/
def uniform : List Request → (List (List Byte) → ℚ) → ℚ
  | [], k => k []
  | r :: rs, k => avg fun x : List.Vector Byte r.len => uniform rs fun keys => k (x.toList :: keys)

/-- The probability that the result of the attacker satisfies `good` when it is given random keys, which have nothing to do with the
passwords, and the function is random. -/
def ideal {β : Type} (rs : List Request) (good : β → Bool) (a : List (List Byte) → Algorithm β) : ℚ :=
  uniform rs fun keys => (a keys).random good []

/-- The probability that one of the guesses in the list is right: each names a user and what HMAC makes of a password. `key x` are the blocks of
the passwords when `x` is drawn. -/
def guessed {α : Type} [Fintype α] (key : α → (u : Nat) → List Byte) (guesses : List (Nat × List Byte)) : ℚ :=
  avg fun x => if ∃ g ∈ guesses, key x g.1 = g.2 then 1 else 0

/-- The number of iterations for all keys. -/
def iterations (rs : List Request) : Nat := (rs.map fun r => r.c * count r.len).sum

/-- The attacker that tries guesses one after the other: it derives the key of the user from the password itself, and says yes if it is the
key that it was given. -/
def attempt (rs : List Request) : (guesses : List (Nat × List Byte)) → (keys : List (List Byte)) → Algorithm Bool
  | [], _ => .result false
  | (u, block) :: guesses, keys =>
    let r := rs.getD u ⟨[], 1, 0⟩
    blocks block r.salt r.c 0 (count r.len) fun t =>
      if keys[u]? = some (t.take r.len) then .result true else attempt rs guesses keys

/-- The attacker that derives one key itself and says yes if it is among those that it was given. -/
def sweep (r : Request) (block : List Byte) (keys : List (List Byte)) : Algorithm Bool :=
  blocks block r.salt r.c 0 (count r.len) fun t => .result (decide (t.take r.len ∈ keys))

end Spec.GuessGames
