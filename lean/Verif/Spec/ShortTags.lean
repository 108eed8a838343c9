import Verif.Spec.KeyGames

/-! Digests of which only the first octets are sent and checked. -/

namespace Spec.KeyGames
open Spec

/-- The distinguisher made of a forger that sees, and forges, only the first `t` octets of digests: it runs the forger with the unknown
function and says yes if the forgery is correct. -/
def Forger.reduceShort (t : Nat) : Forger → Distinguisher
  | .giveUp => .answer false
  | .forge m tag => .query m fun y => .answer (y.toList.take t = tag)
  | .ask m next => .query m fun y => (next (y.toList.take t)).reduceShort t

/-- All strings of `t` octets. -/
def strings : Nat → List (List Byte)
  | 0 => [[]]
  | t + 1 => (List.range 256).flatMap fun b => (strings t).map (BitVec.ofNat 8 b :: ·)

/-- Have the message checked with one string after the other. -/
def tryAll (m : List Byte) : List (List Byte) → Prober
  | [] => .stop
  | tag :: tags => .attempt m tag fun correct => if correct then .stop else tryAll m tags

end Spec.KeyGames
