import Verif.Source.Refine.Sha256
import Verif.Model.Hmac

/-! The functions of `src/hmac.rs` compute what the model says. -/

set_option linter.constructorNameAsVariable false
set_option backward.isDefEq.respectTransparency false

namespace Verif.Source
open Verif Verif.Sha256 Verif.Hmac

variable (T : Target) (F d : Nat)

/-- An `HMac` as a value of the source. -/
def encHMac (s : HMac) : Val := .struct .HMac [(.inner, encSha s.inner), (.outer, encSha s.outer)]

theorem src_HMac_newShort (key : List U8) (hk : key.length ≤ 64) :
    call T crate F (d + 5) .hmac_HMac_new [bytes key] = up (HMac.newShort T key) >>= fun s => .ok (encHMac s, []) := by
  rw [call_hmac_HMac_new]
  have hs : ((Vector.replicate 64 0#8).toList.take key.length).length = key.length := by
    simp [-List.reduceReplicate]; omega
  evaluate [Gen.fn_hmac_HMac_new, hk, show ¬ 64 < key.length by omega, HMac.newShort, copyFromSlice, slice, hs, BLOCK_SIZE,
    List.drop_replicate]
  have hb : key ++ List.drop key.length (Vector.replicate 64 0#8).toList = key ++ List.replicate (64 - key.length) 0#8 := by
    simp [-List.reduceReplicate]
  rw [hb]
  have hl : (key ++ List.replicate (64 - key.length) 0#8).length = 64 := by simp [-List.reduceReplicate]; omega
  generalize key ++ List.replicate (64 - key.length) 0#8 = b at hl ⊢
  erw [forLoop_iterMap (fun b => [(.outer, encSha SHA256.new), (.inner, encSha SHA256.new), (.block, bytes b),
    (.key, bytes key)]) (fun e => e ^^^ 54#8) hl.symm]
  · evaluate [hl]
    refine R.bind_congr fun inner => ?_
    erw [forLoop_iterMap (fun b => [(.outer, encSha SHA256.new), (.inner, encSha inner), (.block, bytes b),
      (.key, bytes key)]) (xs := b.map fun e => e ^^^ 54#8) (fun e => e ^^^ 106#8) (by simp [hl])]
    · evaluate [encHMac]
    · intro i hi s k
      evaluate []
  · intro i hi s k
    evaluate []

@[src] theorem src_HMac_new (key : List U8) :
    call T crate F (d + 6) .hmac_HMac_new [bytes key] = up (HMac.new T key) >>= fun s => .ok (encHMac s, []) := by
  by_cases hk : key.length ≤ 64
  · rw [src_HMac_newShort T F _ _ hk, HMac.new, if_neg (by simpa [BLOCK_SIZE] using hk)]
  · have h := fun v : Vector U8 32 => src_HMac_newShort T F d v.toList (by simp)
    rw [call_hmac_HMac_new]
    evaluate [Gen.fn_hmac_HMac_new, show 64 < key.length by omega, HMac.new, BLOCK_SIZE, h]

@[src] theorem src_HMac_update (s : HMac) (data : List U8) :
    call T crate F (d + 5) .hmac_HMac_update [encHMac s, bytes data] =
      up (s.update T data) >>= fun s => .ok (.unit, [encHMac s]) := by
  rw [call_hmac_HMac_update]
  evaluate [Gen.fn_hmac_HMac_update, HMac.update, encHMac]

@[src] theorem src_HMac_digest (s : HMac) :
    call T crate F (d + 5) .hmac_HMac_digest [encHMac s] =
      up (s.digest T) >>= fun r => .ok (bytes r.2.toList, [encHMac r.1]) := by
  rw [call_hmac_HMac_digest]
  evaluate [Gen.fn_hmac_HMac_digest, HMac.digest, encHMac]

end Verif.Source
