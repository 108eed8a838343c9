import Verif.Spec.CbcMachine

/-
How much the streaming encryptor and decryptor are given at a time: the octets that are gathered by a call, compared with a limit.
-/

namespace Spec.Cbc

/-- In this history of calls no `write` makes the encryptor gather more than `limit` octets: those pending, and those written. -/
def Enc.Within (limit : Nat) : Enc → List Call → Prop
  | _, [] => True
  | e, .write b :: cs => e.pending.length + b.length ≤ limit ∧ (e.step (.write b)).1.Within limit cs
  | e, c :: cs => (e.step c).1.Within limit cs

/-- In this history of calls no `write` makes the decryptor gather more than `limit` octets: of ciphertext, those pending and those written;
of plaintext, when there is a key, those held back and those of the complete blocks. -/
def Dec.Within (limit : Nat) : Dec → List Call → Prop
  | _, [] => True
  | d, .write b :: cs =>
    d.pending.length + b.length ≤ limit ∧
    (d.key.isSome → d.held.length + 16 * ((d.pending.length + b.length) / 16) ≤ limit) ∧
    (d.step (.write b)).1.Within limit cs
  | d, c :: cs => (d.step c).1.Within limit cs

end Spec.Cbc
