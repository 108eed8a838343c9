import Verif.Spec.KeyGames
import Verif.Spec.Scrypt

/-
Attackers that have keys derived from a secret password by scrypt.
-/

namespace Spec.ScryptGames
open Spec Spec.KeyGames
open Spec.Games (avg)

/-- The parameters of scrypt (RFC 7914, section 2). -/
structure Params where
  r : Nat
  N : Nat
  p : Nat

/-- The size of `B` (section 6, step 1). -/
def Params.size (P : Params) : Nat := P.p * 128 * P.r

/-- Section 6, step 2: every part of `B` goes through `scryptROMix`. -/
def Params.mix (P : Params) (B : List Byte) : List Byte :=
  (List.range P.p).flatMap fun i => Scrypt.roMix P.r P.N ((B.drop (128 * P.r * i)).take (128 * P.r))

/-- The largest probability that `mix` has one particular value, for uniformly random `B`. -/
def Params.share (P : Params) : ℚ :=
  (Finset.univ : Finset (List.Vector Byte P.size)).sup' ⟨List.Vector.replicate _ 0, Finset.mem_univ _⟩ fun B₀ =>
    avg fun B : List.Vector Byte P.size => if P.mix B.toList = P.mix B₀.toList then 1 else 0

/-- An attacker: it asks for keys, naming the salt and the size, one after the other, sees each key, and says yes or no in the end. -/
inductive Attacker where
  | answer (yes : Bool)
  | ask (salt : List Byte) (len : Nat) (next : (key : List Byte) → Attacker)

/-- All questions satisfy `ok`; every salt is new (`used` are the earlier ones); the size of the key is one that RFC 7914 allows; and at most `q` keys are asked for. -/
def Attacker.Within (P : Params) (ok : (salt : List Byte) → (len : Nat) → Prop) : (used : List (List Byte)) → (q : Nat) → Attacker → Prop
  | _, _, .answer _ => True
  | used, q, .ask salt len next => ok salt len ∧ salt ∉ used ∧ len ≤ (2 ^ 32 - 1) * 32 ∧ 1 ≤ q ∧
      ∀ key, (next key).Within P ok (salt :: used) (q - 1)

/-- The probability that the attacker says yes (zero or one) when the keys are derived by `kdf`. -/
def real (kdf : (salt : List Byte) → (len : Nat) → List Byte) : Attacker → ℚ
  | .answer yes => if yes then 1 else 0
  | .ask salt len next => real kdf (next (kdf salt len))

/-- The probability that the attacker says yes when every key is uniformly random. -/
def ideal : Attacker → ℚ
  | .answer yes => if yes then 1 else 0
  | .ask _ len next => avg fun key : List.Vector Byte len => ideal (next key.toList)

/-- The distinguisher made of an attacker: it runs the attacker, and answers its questions by scrypt with the unknown function. -/
def Attacker.reduce (P : Params) : Attacker → Distinguisher
  | .answer yes => .answer yes
  | .ask salt len next => blocks salt 1 0 (count P.size) fun b => blocks (P.mix (b.take P.size)) 1 0 (count len) fun t =>
      (next (t.take len)).reduce P

/-- The number of values the distinguisher asks for is at most `n`. -/
def Attacker.Cost (P : Params) : Nat → Attacker → Prop
  | _, .answer _ => True
  | n, .ask _ len next => count P.size + count len ≤ n ∧ ∀ key, (next key).Cost P (n - (count P.size + count len))

end Spec.ScryptGames
