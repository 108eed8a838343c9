import Verif.Spec.Games
import Verif.Spec.Pbkdf2

/-
Attackers that have keys derived from a secret password, attackers that have messages authenticated with a secret key, and distinguishers
of HMAC from a random function of messages.
-/

namespace Spec.KeyGames
open Spec Spec.Games

/-- A digest of 32 octets. -/
abbrev Digest := List.Vector Byte 32

/-- An algorithm that uses a function from messages to digests by asking for its values, and says yes or no in the end. -/
inductive Distinguisher where
  | answer (yes : Bool)
  | query (x : List Byte) (next : (y : Digest) → Distinguisher)

/-- The probability that it says yes when the function is `f`. -/
def Distinguisher.run (f : List Byte → Digest) : Distinguisher → ℚ
  | .answer yes => if yes then 1 else 0
  | .query x next => (next (f x)).run f

/-- The probability that it says yes when the function is random: every value that it asks for is drawn uniformly when it is asked for
first, and `known` has the values drawn so far. -/
def Distinguisher.random : (known : List (List Byte × Digest)) → Distinguisher → ℚ
  | _, .answer yes => if yes then 1 else 0
  | known, .query x next => match known.lookup x with
    | some y => (next y).random known
    | none => avg fun y : Digest => (next y).random ((x, y) :: known)

/-- It asks for at most `n` values. -/
def Distinguisher.Within : Nat → Distinguisher → Prop
  | _, .answer _ => True
  | n, .query _ next => 1 ≤ n ∧ ∀ y, (next y).Within (n - 1)

/-- HMAC-SHA-256 with a given key, as a function from messages to digests. -/
def hmac (key x : List Byte) : Digest := List.Vector.ofFn fun i => (hmacSha256 key x).getD i 0

/-- How well it tells HMAC with the secret key `secret a`, `a` being uniformly random, from a random function. -/
def Distinguisher.advantage {α : Type} [Fintype α] (secret : α → List Byte) (d : Distinguisher) : ℚ :=
  |(avg fun a => d.run (hmac (secret a))) - d.random []|

/-! ### Derived keys -/

/-- An attacker: it asks for keys, naming the salt, the number of iterations and the size, one after the other, sees each key, and says yes
or no in the end. -/
inductive Attacker where
  | answer (yes : Bool)
  | ask (salt : List Byte) (c len : Nat) (next : (key : List Byte) → Attacker)

/-- The number of blocks of 32 octets in a key. -/
def count (len : Nat) : Nat := (len + 31) / 32

/-- All questions satisfy `ok`; every salt is new (`used` are the earlier ones); there is at least one iteration; the size is one that RFC
2898 allows; and the total number of iterations for all blocks of all keys is at most `n`. -/
def Attacker.Within (ok : (salt : List Byte) → (c len : Nat) → Prop) : (used : List (List Byte)) → Nat → Attacker → Prop
  | _, _, .answer _ => True
  | used, n, .ask salt c len next => ok salt c len ∧ salt ∉ used ∧ 1 ≤ c ∧ len ≤ (2 ^ 32 - 1) * 32 ∧
      c * count len ≤ n ∧ ∀ key, (next key).Within ok (salt :: used) (n - c * count len)

/-- The probability that the attacker says yes (zero or one) when the keys are derived by `kdf`. -/
def real (kdf : (salt : List Byte) → (c len : Nat) → List Byte) : Attacker → ℚ
  | .answer yes => if yes then 1 else 0
  | .ask salt c len next => real kdf (next (kdf salt c len))

/-- The probability that the attacker says yes when every key is uniformly random. -/
def ideal : Attacker → ℚ
  | .answer yes => if yes then 1 else 0
  | .ask _ _ len next => avg fun key : List.Vector Byte len => ideal (next key.toList)

/-- `j` more iterations after `u`, summed to `acc`; then what `k` makes of the sum. -/
def chain : (j : Nat) → (u acc : Digest) → (Digest → Distinguisher) → Distinguisher
  | 0, _, acc, k => k acc
  | j + 1, u, acc, k => .query u.toList fun y => chain j y (List.Vector.map₂ (· ^^^ ·) acc y) k

/-- `l` blocks after the first `i` blocks; then what `k` makes of them. -/
def blocks (salt : List Byte) (c : Nat) : (i l : Nat) → (List Byte → Distinguisher) → Distinguisher
  | _, 0, k => k []
  | i, l + 1, k => .query (salt ++ beBytes 4 (i + 1)) fun u => chain (c - 1) u u fun t =>
      blocks salt c (i + 1) l fun rest => k (t.toList ++ rest)

/-- The distinguisher made of an attacker: it runs the attacker, and answers its questions by PBKDF2 with the unknown function. -/
def Attacker.reduce : Attacker → Distinguisher
  | .answer yes => .answer yes
  | .ask salt c len next => blocks salt c 0 (count len) fun t => (next (t.take len)).reduce

/-! ### Authenticated messages -/

/-- A forger: it has messages authenticated, one after the other, sees each digest, and names a message and a digest in the end, or gives
up. -/
inductive Forger where
  | giveUp
  | forge (m tag : List Byte)
  | ask (m : List Byte) (next : (tag : List Byte) → Forger)

/-- All messages satisfy `ok`; the message of the forgery is not one of those that were authenticated (`asked` are the earlier ones); and
at most `n` messages were authenticated. -/
def Forger.Within (ok : List Byte → Prop) : (asked : List (List Byte)) → Nat → Forger → Prop
  | _, _, .giveUp => True
  | asked, _, .forge m _ => ok m ∧ m ∉ asked
  | asked, n, .ask m next => ok m ∧ 1 ≤ n ∧ ∀ tag, (next tag).Within ok (m :: asked) (n - 1)

/-- The probability (zero or one) that the forgery is correct. -/
def Forger.succeeds (mac : List Byte → List Byte) : Forger → ℚ
  | .giveUp => 0
  | .forge m tag => if mac m = tag then 1 else 0
  | .ask m next => (next (mac m)).succeeds mac

/-- The distinguisher made of a forger: it runs the forger with the unknown function and says yes if the forgery is correct. -/
def Forger.reduce : Forger → Distinguisher
  | .giveUp => .answer false
  | .forge m tag => .query m fun y => .answer (y.toList = tag)
  | .ask m next => .query m fun y => (next y.toList).reduce

/-- A forger with many attempts: it has messages authenticated, and it has pairs of a message and a digest checked, in any order, and sees
whether they are correct. -/
inductive Prober where
  | stop
  | ask (m : List Byte) (next : (tag : List Byte) → Prober)
  | attempt (m tag : List Byte) (next : (correct : Bool) → Prober)

/-- All messages satisfy `ok`; at most `n` messages are authenticated and at most `v` pairs are checked. -/
def Prober.Within (ok : List Byte → Prop) : (n v : Nat) → Prober → Prop
  | _, _, .stop => True
  | n, v, .ask m next => ok m ∧ 1 ≤ n ∧ ∀ tag, (next tag).Within ok (n - 1) v
  | n, v, .attempt m _ next => ok m ∧ 1 ≤ v ∧ ∀ correct, (next correct).Within ok n (v - 1)

/-- The probability (zero or one) that some pair is correct whose message was not authenticated before (`asked` were). -/
def Prober.wins (mac : List Byte → List Byte) : (asked : List (List Byte)) → Prober → ℚ
  | _, .stop => 0
  | asked, .ask m next => (next (mac m)).wins mac (m :: asked)
  | asked, .attempt m tag next => if m ∉ asked ∧ mac m = tag then 1 else (next (mac m = tag)).wins mac asked

/-- The forger that bets on the attempt number `j`: it runs the other one, tells it that its attempts number `0` to `j - 1` on messages that
were not authenticated are wrong, and takes the attempt number `j` as its forgery. `known` are the digests that it has seen. -/
def Prober.bet : (j : Nat) → (known : List (List Byte × List Byte)) → Prober → Forger
  | _, _, .stop => .giveUp
  | j, known, .ask m next => .ask m fun tag => (next tag).bet j ((m, tag) :: known)
  | j, known, .attempt m tag next => match known.lookup m with
    | some y => (next (y = tag)).bet j known
    | none => if j = 0 then .forge m tag else (next false).bet (j - 1) known

end Spec.KeyGames
