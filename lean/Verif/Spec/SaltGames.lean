import Verif.Spec.SealGames
import Verif.Spec.ScryptGames

/-
Boxes with a salt: the keys of each box come from one secret password and the salt of the box. Attackers that have messages sealed and boxes
opened with salts of their choice.
-/

namespace Spec.SaltGames
open Spec Spec.Games
open Spec.SealGames (Reply reply ciphertextSize)

/-- What is done with the octets `dk` that are derived from the password and the salt. -/
structure Boxes where
  enc : (dk : List Byte) → Block → List Byte → List Byte
  mac : (dk : List Byte) → Block → List Byte → List Byte
  dec : (dk : List Byte) → Block → List Byte → Option (List Byte)

/-- An attacker: it has messages sealed, naming a salt and two messages each time, and sees initialization vector, ciphertext and tag of one of
the two; and it has boxes opened, also with salts of its choice, and sees the reply of the recipient. It says yes or no in the end. What it
asks may depend in any way on what it has seen. -/
inductive Attacker where
  | answer (yes : Bool)
  | send (salt left right : List Byte) (next : (iv : Block) → (ciphertext tag : List Byte) → Attacker)
  | submit (salt : List Byte) (iv : Block) (ciphertext tag : List Byte) (next : Reply → Attacker)

/-- The probability that the attacker says yes when the left messages are sealed, or the right ones, each with a uniformly random
initialization vector; `keys salt` is what is derived from the salt. Boxes that were sealed before (`seen`) are not opened for it. -/
def real (B : Boxes) (keys : List Byte → List Byte) (right : Bool) :
    (seen : List (List Byte × Block × List Byte × List Byte)) → Attacker → ℚ
  | _, .answer yes => if yes then 1 else 0
  | seen, .send salt l r next => avg fun iv : Block =>
      let c := B.enc (keys salt) iv (if right then r else l)
      real B keys right ((salt, iv, c, B.mac (keys salt) iv c) :: seen) (next iv c (B.mac (keys salt) iv c))
  | seen, .submit salt iv c tag next =>
      real B keys right seen (next (if (salt, iv, c, tag) ∈ seen then .refused else reply (B.mac (keys salt)) (B.dec (keys salt)) iv c tag))

/-- Every two messages take the same number of blocks when they are padded, and `okMessage` holds of them; `okSalt` holds of the salts; `okBox`
holds of the ciphertexts that are submitted; in total at most `n` blocks are sealed, in at most `q` boxes, and at most `v` boxes are
submitted. This has to be so for all boxes that the attacker might get in which ciphertext and tag have the right sizes. -/
def Attacker.Within (okSalt okMessage okBox : List Byte → Prop) : (n q v : Nat) → Attacker → Prop
  | _, _, _, .answer _ => True
  | n, q, v, .send salt l r next => okSalt salt ∧ okMessage l ∧ okMessage r ∧ l.length / 16 = r.length / 16 ∧ l.length / 16 + 1 ≤ n ∧ 1 ≤ q ∧
      ∀ iv c tag, c.length = ciphertextSize l → tag.length = 32 →
        (next iv c tag).Within okSalt okMessage okBox (n - (l.length / 16 + 1)) (q - 1) v
  | n, q, v, .submit salt _ c _ next => okSalt salt ∧ okBox c ∧ 1 ≤ v ∧ ∀ r, (next r).Within okSalt okMessage okBox n q (v - 1)

/-! ### The attacker as one who tells derived octets from random ones -/

/-- An algorithm that asks for what is derived from salts, and says yes or no in the end. -/
inductive Asker where
  | answer (yes : Bool)
  | ask (salt : List Byte) (next : (dk : List Byte) → Asker)

/-- Goes on with what is derived from a salt, `len` octets, and asks for it if it is a new one. `salts` are the earlier ones and `got` is what
was derived from them. -/
def Asker.derived (len : Nat) (salts got : List (List Byte)) (salt : List Byte)
    (next : (dk : List Byte) → (salts got : List (List Byte)) → Asker) : Asker :=
  if salt ∈ salts then next (got.getD (salts.idxOf salt) []) salts got
  else .ask salt fun dk => if dk.length = len then next dk (salts ++ [salt]) (got ++ [dk]) else .answer false

/-- It runs the attacker, and seals and opens the boxes itself, with the given initialization vectors. -/
def Attacker.asker (B : Boxes) (len : Nat) (right : Bool) : (ivs : List Block) → (salts got : List (List Byte)) →
    (seen : List (List Byte × Block × List Byte × List Byte)) → Attacker → Asker
  | _, _, _, _, .answer yes => .answer yes
  | [], _, _, _, .send _ _ _ _ => .answer false
  | iv :: ivs, salts, got, seen, .send salt l r next => .derived len salts got salt fun dk salts got =>
      let c := B.enc dk iv (if right then r else l)
      (next iv c (B.mac dk iv c)).asker B len right ivs salts got ((salt, iv, c, B.mac dk iv c) :: seen)
  | ivs, salts, got, seen, .submit salt iv c tag next => .derived len salts got salt fun dk salts got =>
      (next (if (salt, iv, c, tag) ∈ seen then .refused else reply (B.mac dk) (B.dec dk) iv c tag)).asker B len right ivs salts got seen

/-- As an attacker on PBKDF2 with `c` iterations, who asks for `len` octets each time. -/
def Asker.pbkdf2 (c len : Nat) : Asker → KeyGames.Attacker
  | .answer yes => .answer yes
  | .ask salt next => .ask salt c len fun dk => (next dk).pbkdf2 c len

/-- As an attacker on scrypt. -/
def Asker.scrypt (len : Nat) : Asker → ScryptGames.Attacker
  | .answer yes => .answer yes
  | .ask salt next => .ask salt len fun dk => (next dk).scrypt len

/-! ### The attacker as one on the boxes with one of the salts -/

/-- The salts that were used, in the order of their first use. -/
def note (salts : List (List Byte)) (salt : List Byte) : List (List Byte) := if salt ∈ salts then salts else salts ++ [salt]

/-- The attacker as one who has boxes sealed and opened with the salt number `j` (in the order of their first use) only. The boxes with other
salts it seals and opens itself, with the octets `D i` for the salt number `i` and with the initialization vectors given: right messages with
the salts before, left messages with the salts after. -/
def Attacker.focus (B : Boxes) (j : Nat) (D : Nat → List Byte) : (ivs : List Block) → (salts : List (List Byte)) →
    (seen : List (List Byte × Block × List Byte × List Byte)) → Attacker → SealGames.Attacker
  | _, _, _, .answer yes => .answer yes
  | ivs, salts, seen, .send salt l r next =>
      if salts.idxOf salt = j then
        .send l r fun iv c tag => (next iv c tag).focus B j D ivs (note salts salt) ((salt, iv, c, tag) :: seen)
      else match ivs with
        | [] => .answer false
        | iv :: ivs =>
          let dk := D (salts.idxOf salt)
          let c := B.enc dk iv (if salts.idxOf salt < j then r else l)
          (next iv c (B.mac dk iv c)).focus B j D ivs (note salts salt) ((salt, iv, c, B.mac dk iv c) :: seen)
  | ivs, salts, seen, .submit salt iv c tag next =>
      if salts.idxOf salt = j then .submit iv c tag fun r => (next r).focus B j D ivs (note salts salt) seen
      else
        let dk := D (salts.idxOf salt)
        (next (if (salt, iv, c, tag) ∈ seen then .refused else reply (B.mac dk) (B.dec dk) iv c tag)).focus B j D ivs (note salts salt) seen

/-- The octets for salt number `i`, from a list. -/
def nth (len : Nat) (dks : List (List.Vector Byte len)) (i : Nat) : List Byte := (dks.getD i (List.Vector.replicate len 0)).toList

end Spec.SaltGames
