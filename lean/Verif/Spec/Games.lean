import Verif.Spec.CbcMachine
import Mathlib.Data.Fintype.Vector
import Mathlib.Data.Fintype.Pi
import Mathlib.Data.Fintype.Perm
import Mathlib.Algebra.BigOperators.Field
import Mathlib.Algebra.Order.BigOperators.Ring.Finset
import Mathlib.Data.Rat.Cast.Order

/-
Probabilities over finite sets, attackers that choose plaintexts and see ciphertexts, and distinguishers of a function on blocks from
a random function. As in Bellare, Desai, Jokipii, Rogaway, "A concrete security treatment of symmetric encryption" (1997).
-/

namespace Spec.Games
open Spec Spec.Cbc

instance : Fintype Byte :=
  Fintype.ofEquiv (Fin (2 ^ 8)) { toFun := BitVec.ofFin, invFun := BitVec.toFin, left_inv := fun _ => rfl, right_inv := fun _ => rfl }

/-- A block of 16 octets. -/
abbrev Block := List.Vector Byte 16

/-- The mean of `f` over a finite set: the probability of an event, when `f` is its probability given `a` and `a` is uniformly random. -/
def avg {α : Type} [Fintype α] (f : α → ℚ) : ℚ := (∑ a, f a) / Fintype.card α

/-- A call on an encryptor that has its key. -/
inductive Op where
  | write (b : List Byte)
  | flush

/-- The octets that are encrypted by a series of calls: what is written, padded at every `flush`. `pending` is what was written since the
last `flush`. The incomplete block at the end, if any, is not encrypted. -/
def plain : List Byte → List Op → List Byte
  | pending, [] => pending
  | pending, .write b :: ops => plain (pending ++ b) ops
  | pending, .flush :: ops => pkcs7 16 pending ++ plain [] ops

/-- The number of blocks that are encrypted by a series of calls. -/
def size (ops : List Op) : Nat := (plain [] ops).length / 16

/-- An attacker: it asks for series of calls on encryptors, one after the other, sees the initialization vector and the ciphertext each
time, and says yes or no in the end. What it asks may depend in any way on what it has seen before. -/
inductive Attacker where
  | answer (yes : Bool)
  | ask (ops : List Op) (next : (iv : Block) → (ciphertext : List Byte) → Attacker)

/-- The attacker asks for at most `n` blocks in total, and all the calls it makes satisfy `ok`. -/
def Attacker.Within (ok : Op → Prop) : Nat → Attacker → Prop
  | _, .answer _ => True
  | n, .ask ops next => (∀ op ∈ ops, ok op) ∧ size ops ≤ n ∧ ∀ iv c, (next iv c).Within ok (n - size ops)

/-- The probability that the attacker says yes when every series of calls is made on a fresh encryptor with a uniformly random
initialization vector; `enc iv ops` are the octets that the encryptor gives. -/
def real (enc : Block → List Op → List Byte) : Attacker → ℚ
  | .answer yes => if yes then 1 else 0
  | .ask ops next => avg fun iv : Block => real enc (next iv (enc iv ops))

/-- The probability that the attacker says yes when every ciphertext is replaced by as many uniformly random octets, which have nothing to
do with the plaintext. -/
def ideal : Attacker → ℚ
  | .answer yes => if yes then 1 else 0
  | .ask ops next => avg fun iv : Block => avg fun c : List.Vector Byte (16 * size ops) => ideal (next iv c.toList)

/-- The probability that the attacker says yes when all its calls are made on one encryptor; `past` are the calls made before. -/
def continued (enc : Block → List Op → List Byte) (iv : Block) : List Op → Attacker → ℚ
  | _, .answer yes => if yes then 1 else 0
  | past, .ask ops next =>
    continued enc iv (past ++ ops) (next iv ((enc iv (past ++ ops)).drop (enc iv past).length))

/-- An algorithm that uses a function on blocks by asking for its values, and uniformly random blocks, and says yes or no in the end. -/
inductive Distinguisher where
  | answer (yes : Bool)
  | query (x : Block) (next : (y : Block) → Distinguisher)
  | random (next : (u : Block) → Distinguisher)

/-- The probability that it says yes when the function is `f`. -/
def Distinguisher.run (f : Block → Block) : Distinguisher → ℚ
  | .answer yes => if yes then 1 else 0
  | .query x next => (next (f x)).run f
  | .random next => avg fun u : Block => (next u).run f

/-- It asks for at most `n` values. -/
def Distinguisher.Within : Nat → Distinguisher → Prop
  | _, .answer _ => True
  | n, .query _ next => 1 ≤ n ∧ ∀ y, (next y).Within (n - 1)
  | n, .random next => ∀ u, (next u).Within n

/-- AES with a given key, as a function on blocks. -/
noncomputable def aes (key : List Byte) (x : Block) : Block := List.Vector.ofFn fun i => (Aes.encrypt key x.toList).getD i 0

/-- How well it tells AES with a uniformly random key of `n` octets from a uniformly random function on blocks. -/
noncomputable def Distinguisher.advantage (d : Distinguisher) (n : Nat) : ℚ :=
  |(avg fun key : List.Vector Byte n => d.run (aes key.toList)) - avg fun f : Block → Block => d.run f|

/-- How well it tells AES with a uniformly random key of `n` octets from a uniformly random permutation of the blocks. -/
noncomputable def Distinguisher.advantageAmongPermutations (d : Distinguisher) (n : Nat) : ℚ :=
  |(avg fun key : List.Vector Byte n => d.run (aes key.toList)) - avg fun f : Equiv.Perm Block => d.run f|

/-- The complete blocks of a string. -/
def blocksOf (s : List Byte) : List Block :=
  (List.range (s.length / 16)).map fun i => List.Vector.ofFn fun j => s.getD (16 * i + j) 0

/-- CBC encryption of blocks with the unknown function, `c` being the chaining block; then what `k` makes of the ciphertext. -/
def cbc : Block → List Block → (List Byte → Distinguisher) → Distinguisher
  | _, [], k => k []
  | c, m :: ms, k => .query (List.Vector.map₂ (· ^^^ ·) m c) fun y => cbc y ms fun rest => k (y.toList ++ rest)

/-- The distinguisher made of an attacker: it runs the attacker, and answers its questions by CBC with the unknown function and a random
initialization vector. -/
def Attacker.reduce : Attacker → Distinguisher
  | .answer yes => .answer yes
  | .ask ops next => .random fun iv => cbc iv (blocksOf (plain [] ops)) fun c => (next iv c).reduce

/-- An attacker that names two series of calls each time; only one of them is made, always the left one or always the right one. -/
inductive Chooser where
  | answer (yes : Bool)
  | ask (left right : List Op) (next : (iv : Block) → (ciphertext : List Byte) → Chooser)

/-- The attacker that sees the left ones, or the right ones. -/
def Chooser.side (right : Bool) : Chooser → Attacker
  | .answer yes => .answer yes
  | .ask l r next => .ask (if right then r else l) fun iv c => (next iv c).side right

/-- The two series have the same number of blocks each time. (The number of blocks is not hidden.) -/
def Chooser.Fair : Chooser → Prop
  | .answer _ => True
  | .ask l r next => size l = size r ∧ ∀ iv c, (next iv c).Fair

/-- An attacker that has the same block encrypted `n` times, and says yes if it sees the same ciphertext for two different initialization
vectors. `seen` is what it has seen so far. -/
def birthday : Nat → List (Block × List Byte) → Attacker
  | 0, _ => .answer false
  | n + 1, seen => .ask [.write (List.replicate 16 0)] fun iv c =>
      if ∃ earlier ∈ seen, earlier.2 = c ∧ earlier.1 ≠ iv then .answer true else birthday n ((iv, c) :: seen)

end Spec.Games
