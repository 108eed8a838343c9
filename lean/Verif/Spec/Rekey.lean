import Verif.Spec.Games

/-
How many messages one key serves before ciphertext blocks come out equal. The messages are chosen by someone, one after the other, who may
look at all ivs and ciphertexts so far; `Attacker` stands for this person together with someone who waits for equal blocks.
-/

namespace Spec.Games
open Spec

/-- Has `n` messages encrypted, and says yes as soon as the ciphertexts of two of them begin with the same block. `seen` are the earlier ivs
and ciphertexts, `choose` is the next message. -/
def firstBlocks (choose : List (Block × List Byte) → List Op) : Nat → List (Block × List Byte) → Attacker
  | 0, _ => .answer false
  | n + 1, seen => .ask (choose seen) fun iv c =>
      if c.take 16 ∈ seen.map (·.2.take 16) then .answer true else firstBlocks choose n ((iv, c) :: seen)

/-- Has `n` messages encrypted, and says yes if any two blocks of their ciphertexts are equal. -/
def anyBlocks (choose : List (Block × List Byte) → List Op) : Nat → List (Block × List Byte) → Attacker
  | 0, seen => .answer (decide ¬ (seen.flatMap fun x => blocksOf x.2).Nodup)
  | n + 1, seen => .ask (choose seen) fun iv c => anyBlocks choose n ((iv, c) :: seen)

/-- The chance that `n` uniformly random blocks are not all different. -/
def someEqual (n : Nat) : ℚ := 1 - ∏ i ∈ Finset.range n, (1 - (i : ℚ) / 2 ^ 128)

end Spec.Games
