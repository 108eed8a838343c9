import Verif.Spec.Aes

/-! Strategies that use AES with keys of their choice, and the search for two keys that were used one after the other. -/

namespace Spec.Aes
open Spec

/-- A strategy: it has blocks encrypted and decrypted with keys of its choice, one after the other, sees the results, and answers in the
end. -/
inductive Plan (α : Type) where
  | done (a : α)
  | encrypt (key : List Byte) (b : Vector Byte 16) (next : Vector Byte 16 → Plan α)
  | decrypt (key : List Byte) (b : Vector Byte 16) (next : Vector Byte 16 → Plan α)

/-- Encrypt the block with each of the keys. -/
def encryptAll {α : Type} (b : Vector Byte 16) : (keys : List (List Byte)) → (List (List Byte × Vector Byte 16) → Plan α) → Plan α
  | [], next => next []
  | key :: keys, next => .encrypt key b fun x => encryptAll b keys fun table => next ((key, x) :: table)

/-- Decrypt the block with each of the keys. -/
def decryptAll {α : Type} (b : Vector Byte 16) : (keys : List (List Byte)) → (List (List Byte × Vector Byte 16) → Plan α) → Plan α
  | [], next => next []
  | key :: keys, next => .decrypt key b fun x => decryptAll b keys fun table => next ((key, x) :: table)

/-- Encrypt `p` with the keys for the first step, decrypt `c` with the keys for the second one, and answer with the pairs of keys that
lead to the same block. -/
def meet (keys₁ keys₂ : List (List Byte)) (p c : Vector Byte 16) : Plan (List (List Byte × List Byte)) :=
  encryptAll p keys₁ fun first => decryptAll c keys₂ fun second =>
    .done (first.flatMap fun e => (second.filter fun e' => e'.2 = e.2).map fun e' => (e.1, e'.1))

end Spec.Aes
