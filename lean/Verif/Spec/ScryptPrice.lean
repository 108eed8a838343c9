import Verif.Spec.GuessGames
import Verif.Spec.ScryptGames

/-
Attackers that have keys derived by scrypt from the passwords of several users and try passwords. A keyed function from messages to digests stands
in the place of HMAC, and a function from octet strings to 64 octets in the place of the Salsa20/8 core. Every evaluation is counted. The key of
the first function is the block of 64 octets that HMAC makes of a password.
-/

namespace Spec.ScryptPrice
open Spec Spec.Games
open Spec.KeyGames (count)
open Spec.GuessGames (hmacWithBlock blockOf guessed)
open Spec.ScryptGames (Params)
open Spec.Scrypt (block integerify salsa208)

/-- What may be evaluated. -/
inductive Question where
  | hmac (key x : List Byte)
  | core (x : List Byte)
  deriving DecidableEq

/-- The number of octets of the value. -/
def Question.size : Question → Nat
  | .hmac _ _ => 32
  | .core _ => 64

/-- An algorithm that evaluates the two functions, one evaluation after the other, and gives a result in the end. -/
inductive Algorithm (β : Type) where
  | result (b : β)
  | eval (q : Question) (next : (y : List.Vector Byte q.size) → Algorithm β)

/-- One algorithm, then one that has its result. -/
def Algorithm.bind {β γ : Type} : Algorithm β → (β → Algorithm γ) → Algorithm γ
  | .result b, k => k b
  | .eval q next, k => .eval q fun y => (next y).bind k

/-- The result when the functions are given. -/
def Algorithm.run {β : Type} (F : (q : Question) → List.Vector Byte q.size) : Algorithm β → β
  | .result b => b
  | .eval q next => (next (F q)).run F

/-- HMAC-SHA-256 after its key has been brought to 64 octets, and the Salsa20/8 core. -/
def functions : (q : Question) → List.Vector Byte q.size
  | .hmac key x => hmacWithBlock key x
  | .core x => List.Vector.ofFn fun i => (salsa208 x).getD i 0

/-- Values that have been drawn. -/
abbrev Table := (q : Question) → Option (List.Vector Byte q.size)

/-- The probability that the result satisfies `good` when both functions are random: every value is drawn uniformly when it is needed first,
and `known` has the values drawn so far. -/
def Algorithm.random {β : Type} (good : β → Bool) : (known : Table) → Algorithm β → ℚ
  | _, .result b => if good b then 1 else 0
  | known, .eval q next => match known q with
    | some y => (next y).random good known
    | none => avg fun y : List.Vector Byte q.size => (next y).random good (Function.update known q (some y))

/-- There are at most `h` evaluations of HMAC and `c` of the core. -/
def Algorithm.Within {β : Type} : (h c : Nat) → Algorithm β → Prop
  | _, _, .result _ => True
  | h, c, .eval (.hmac _ _) next => 1 ≤ h ∧ ∀ y, (next y).Within (h - 1) c
  | h, c, .eval (.core _) next => 1 ≤ c ∧ ∀ y, (next y).Within h (c - 1)

/-! ### scrypt as such an algorithm -/

/-- RFC 7914 section 4, step 2, for the blocks `bs`; `ys` are the values so far. -/
def chain {β : Type} : (x : List Byte) → (bs ys : List (List Byte)) → (List (List Byte) → Algorithm β) → Algorithm β
  | _, [], ys, k => k ys
  | x, b :: bs, ys, k => .eval (.core (xorBytes x b)) fun y => chain y.toList bs (ys ++ [y.toList]) k

/-- Section 4, step 3: those with even numbers come first. -/
def shuffle (r : Nat) (ys : List (List Byte)) : List Byte :=
  (List.range r).flatMap (fun i => ys.getD (2 * i) []) ++ (List.range r).flatMap (fun i => ys.getD (2 * i + 1) [])

/-- Section 4: `scryptBlockMix`; then what `k` makes of the result. -/
def blockMix {β : Type} (r : Nat) (B : List Byte) (k : List Byte → Algorithm β) : Algorithm β :=
  chain (block B (2 * r - 1)) ((List.range (2 * r)).map (block B)) [] fun ys => k (shuffle r ys)

/-- Section 5, step 2: `n` steps from `X`, after the table `V` has been filled so far. -/
def fill {β : Type} (r : Nat) : (n : Nat) → (X : List Byte) → (V : List (List Byte)) → (List (List Byte) → List Byte → Algorithm β) → Algorithm β
  | 0, X, V, k => k V X
  | n + 1, X, V, k => blockMix r X fun X' => fill r n X' (V ++ [X]) k

/-- Section 5, step 3: `n` steps from `X`. -/
def loop (r N : Nat) (V : List (List Byte)) : (n : Nat) → (X : List Byte) → Algorithm (List Byte)
  | 0, X => .result X
  | n + 1, X => blockMix r (xorBytes X (V.getD (integerify r X % N) [])) fun X' => loop r N V n X'

/-- Section 5: `scryptROMix`. -/
def roMix (r N : Nat) (B : List Byte) : Algorithm (List Byte) := fill r N B [] fun V X => loop r N V N X

/-- `l` blocks of PBKDF2 with one iteration, after the first `i` blocks; then what `k` makes of them. -/
def blocks {β : Type} (key salt : List Byte) : (i l : Nat) → (List Byte → Algorithm β) → Algorithm β
  | _, 0, k => k []
  | i, l + 1, k => .eval (.hmac key (salt ++ beBytes 4 (i + 1))) fun t => blocks key salt (i + 1) l fun rest => k (t.toList ++ rest)

/-- Section 6, steps 1 and 2, for one part of `B`. -/
def lane (P : Params) (key salt : List Byte) (i : Nat) : Algorithm (List Byte) :=
  blocks key salt (4 * P.r * i) (4 * P.r) fun B => roMix P.r P.N B

/-- The same for `l` parts, from number `i` on. -/
def lanes (P : Params) (key salt : List Byte) : (i l : Nat) → Algorithm (List Byte)
  | _, 0 => .result []
  | i, l + 1 => (lane P key salt i).bind fun X => (lanes P key salt (i + 1) l).bind fun rest => .result (X ++ rest)

/-- Section 6, steps 1 and 2. -/
def mix (P : Params) (key salt : List Byte) : Algorithm (List Byte) := lanes P key salt 0 P.p

/-- What is derived for a user: with which salt, how many octets. -/
structure Request where
  salt : List Byte
  len : Nat

/-- Section 6, steps 1 and 2, for every user, the first one being the user number `u`. `key u` is the block of the password of user number `u`. -/
def mixAll (P : Params) (key : (u : Nat) → List Byte) : (u : Nat) → List Request → Algorithm (List (List Byte))
  | _, [] => .result []
  | u, r :: rs => (mix P (key u) r.salt).bind fun B => (mixAll P key (u + 1) rs).bind fun Bs => .result (B :: Bs)

/-- Section 6, step 3, for every user; then what `k` makes of the keys. -/
def finish {β : Type} (key : (u : Nat) → List Byte) :
    (u : Nat) → List Request → (Bs : List (List Byte)) → (List (List Byte) → Algorithm β) → Algorithm β
  | u, r :: rs, B :: Bs, k => blocks (key u) B 0 (count r.len) fun t => finish key (u + 1) rs Bs fun keys => k (t.take r.len :: keys)
  | _, _, _, k => k []

/-- One key for each user; then what `k` makes of the keys. -/
def derive {β : Type} (P : Params) (key : (u : Nat) → List Byte) (rs : List Request) (k : List (List Byte) → Algorithm β) : Algorithm β :=
  (mixAll P key 0 rs).bind fun Bs => finish key 0 rs Bs k

/-- The probability that the result of the attacker satisfies `good` when it is given the keys derived for all users, and the functions are
random. -/
def real {β : Type} (P : Params) (rs : List Request) (key : (u : Nat) → List Byte) (good : β → Bool) (a : List (List Byte) → Algorithm β) : ℚ :=
  (derive P key rs a).random good fun _ => none

/-- The mean of what `k` makes of uniformly random keys of the same sizes. -/
def uniform : List Request → (List (List Byte) → ℚ) → ℚ
  | [], k => k []
  | r :: rs, k => avg fun x : List.Vector Byte r.len => uniform rs fun keys => k (x.toList :: keys)

/-- The probability that the result of the attacker satisfies `good` when it is given random keys, which have nothing to do with the passwords,
and the functions are random. -/
def ideal {β : Type} (rs : List Request) (good : β → Bool) (a : List (List Byte) → Algorithm β) : ℚ :=
  uniform rs fun keys => (a keys).random good fun _ => none

/-- The number of evaluations of the core for one key. -/
def price (P : Params) : Nat := 4 * P.r * P.N * P.p

/-- The attacker that tries guesses one after the other: it derives the key of the user from the password itself, and says yes if it is the
key that it was given. -/
def attempt (P : Params) (rs : List Request) : (guesses : List (Nat × List Byte)) → (keys : List (List Byte)) → Algorithm Bool
  | [], _ => .result false
  | (u, key) :: guesses, keys =>
    let r := rs.getD u ⟨[], 0⟩
    (mix P key r.salt).bind fun B => blocks key B 0 (count r.len) fun t =>
      if keys[u]? = some (t.take r.len) then .result true else attempt P rs guesses keys

end Spec.ScryptPrice
