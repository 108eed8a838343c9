import Verif.Spec.KeyGames

/-
Messages that are encrypted and then authenticated, and attackers that may also have boxes of their own opened. As in Bellare, Namprempre,
"Authenticated encryption: relations among notions and analysis of the generic composition paradigm" (2000).
-/

namespace Spec.SealGames
open Spec Spec.Games

/-- What the recipient of a box answers: the tag is wrong, or the ciphertext cannot be decrypted, or the message. -/
inductive Reply where
  | refused
  | garbage
  | message (m : List Byte)
deriving DecidableEq

/-- An attacker: it has messages sealed, naming two each time, and sees initialization vector, ciphertext and tag of one of the two; and it
has boxes opened, and sees the reply of the recipient. It says yes or no in the end. What it asks may depend in any way on what it has seen. -/
inductive Attacker where
  | answer (yes : Bool)
  | send (left right : List Byte) (next : (iv : Block) → (ciphertext tag : List Byte) → Attacker)
  | submit (iv : Block) (ciphertext tag : List Byte) (next : Reply → Attacker)

/-- The recipient checks the tag and, if it is right, decrypts. -/
def reply (mac : Block → List Byte → List Byte) (dec : Block → List Byte → Option (List Byte)) (iv : Block) (c tag : List Byte) : Reply :=
  if mac iv c = tag then
    match dec iv c with
    | some m => .message m
    | none => .garbage
  else .refused

/-- The probability that the attacker says yes when the left messages are sealed, or the right ones, each with a uniformly random
initialization vector. Boxes that were sealed before (`seen`) are not opened for it. -/
def real (enc : Block → List Byte → List Byte) (mac : Block → List Byte → List Byte) (dec : Block → List Byte → Option (List Byte))
    (right : Bool) : (seen : List (Block × List Byte × List Byte)) → Attacker → ℚ
  | _, .answer yes => if yes then 1 else 0
  | seen, .send l r next => avg fun iv : Block =>
      let c := enc iv (if right then r else l)
      real enc mac dec right ((iv, c, mac iv c) :: seen) (next iv c (mac iv c))
  | seen, .submit iv c tag next =>
      real enc mac dec right seen (next (if (iv, c, tag) ∈ seen then .refused else reply mac dec iv c tag))

/-- The size of the ciphertext of a message, in octets. -/
def ciphertextSize (m : List Byte) : Nat := 16 * (m.length / 16 + 1)

/-- Every two messages take the same number of blocks when they are padded, and `okMessage` holds of them; `okBox` holds of the ciphertexts
that are submitted; in total at most `n` blocks are sealed, in at most `q` boxes, and at most `v` boxes are submitted. This has to be so for
all boxes that the attacker might get in which ciphertext and tag have the right sizes. -/
def Attacker.Within (okMessage okBox : List Byte → Prop) : (n q v : Nat) → Attacker → Prop
  | _, _, _, .answer _ => True
  | n, q, v, .send l r next => okMessage l ∧ okMessage r ∧ l.length / 16 = r.length / 16 ∧ l.length / 16 + 1 ≤ n ∧ 1 ≤ q ∧
      ∀ iv c tag, c.length = ciphertextSize l → tag.length = 32 → (next iv c tag).Within okMessage okBox (n - (l.length / 16 + 1)) (q - 1) v
  | n, q, v, .submit _ c _ next => okBox c ∧ 1 ≤ v ∧ ∀ r, (next r).Within okMessage okBox n q (v - 1)

/-- The attacker without a recipient: it is told that every box is refused. Tags are made with `mac`. -/
def Attacker.deaf (mac : Block → List Byte → List Byte) : Attacker → Chooser
  | .answer yes => .answer yes
  | .send l r next => .ask [.write l, .flush] [.write r, .flush] fun iv c =>
      if c.length = ciphertextSize l ∧ (mac iv c).length = 32 then (next iv c (mac iv c)).deaf mac else .answer false
  | .submit _ _ _ next => (next .refused).deaf mac

/-- The attacker as one who tries to find tags: messages are encrypted with `enc` and the initialization vectors given, tags are asked for,
and each box that is submitted is an attempt. What is authenticated is the initialization vector and the ciphertext. -/
def Attacker.prober (enc : Block → List Byte → List Byte) (right : Bool) : (ivs : List Block) → Attacker → KeyGames.Prober
  | _, .answer _ => .stop
  | [], .send _ _ _ => .stop
  | iv :: ivs, .send l r next =>
      let c := enc iv (if right then r else l)
      .ask (iv.toList ++ c) fun tag => if c.length = ciphertextSize l ∧ tag.length = 32 then (next iv c tag).prober enc right ivs else .stop
  | ivs, .submit iv c tag next => .attempt (iv.toList ++ c) tag fun _ => (next .refused).prober enc right ivs

/-- What the attacker says when the initialization vectors are the given ones (no, if they are too few). -/
def Attacker.says (enc : Block → List Byte → List Byte) (mac : Block → List Byte → List Byte) (dec : Block → List Byte → Option (List Byte))
    (right : Bool) : (ivs : List Block) → (seen : List (Block × List Byte × List Byte)) → Attacker → Bool
  | _, _, .answer yes => yes
  | [], _, .send _ _ _ => false
  | iv :: ivs, seen, .send l r next =>
      let c := enc iv (if right then r else l)
      (next iv c (mac iv c)).says enc mac dec right ivs ((iv, c, mac iv c) :: seen)
  | ivs, seen, .submit iv c tag next =>
      (next (if (iv, c, tag) ∈ seen then .refused else reply mac dec iv c tag)).says enc mac dec right ivs seen

end Spec.SealGames
