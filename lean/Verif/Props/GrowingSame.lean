import Verif.Props.Growing
import Verif.Props.CbcSplit

/-! C98, once more: within the limit a `Cipher` or a `Decipher` with vectors that grow answers as the model without capacities does, on any target. So
the properties of answers that are stated with that model (C28 to C44, C51 to C57, C60) hold of histories within the limit. -/

namespace Verif.Props.GrowingSame
open Verif Verif.Aes Verif.AesCbc Verif.Growing Spec.Cbc
open Verif.Props.CbcSplit (errA_inj errD_inj)
open Verif.Props.CbcHistory (C43_cipher C43_decipher)

/-- C98: the answers of a `Cipher`, within the limit of its target, are those of the model without capacities on any target. -/
theorem C98_cipher_model (T T' : Target) (G : Policy) (iv : Vector U8 16) (calls : List Call)
    (h : Enc.Within (2 ^ (T.bits - 2)) ⟨none, iv.toList, []⟩ calls) :
    ∃ c c' rs, Growing.csession T G iv calls = .ok (c, rs) ∧ AesCbc.crun T' (AesCbc.Cipher.new iv) calls = .ok (c', rs) := by
  obtain ⟨c, rs, h1, h2⟩ := Growing.C98_cipher T G iv calls h
  obtain ⟨c', rs', h3, h4⟩ := C43_cipher T' iv calls
  refine ⟨c, c', rs, h1, ?_⟩
  rw [(List.map_inj_right (fun _ _ h => errA_inj h)).1 (h2.trans h4.symm)]
  exact h3

/-- C98: the same for `Decipher`. -/
theorem C98_decipher_model (T T' : Target) (G : Policy) (iv : Vector U8 16) (calls : List Call)
    (h : Dec.Within (2 ^ (T.bits - 2)) ⟨none, iv.toList, [], []⟩ calls) :
    ∃ d d' rs, Growing.dsession T G iv calls = .ok (d, rs) ∧ AesCbc.drun T' (AesCbc.Decipher.new iv) calls = .ok (d', rs) := by
  obtain ⟨d, rs, h1, h2⟩ := Growing.C98_decipher T G iv calls h
  obtain ⟨d', rs', h3, h4⟩ := C43_decipher T' iv calls
  refine ⟨d, d', rs, h1, ?_⟩
  rw [(List.map_inj_right (fun _ _ h => errD_inj h)).1 (h2.trans h4.symm)]
  exact h3

/-- A message of a block on a 32-bit target and on a 64-bit one. -/
example (G : Policy) (iv : Vector U8 16) := C98_decipher_model ⟨.w32, true⟩ ⟨.w64, false⟩ G iv
  [.init (List.replicate 16 1), .write (List.replicate 16 7), .flush] ⟨by show 16 ≤ 2 ^ 30; decide, fun _ => by show 0 + 16 * ((0 + 16) / 16) ≤ 2 ^ 30; decide, trivial⟩

/-- Two targets, one history. -/
example (G G' : Policy) (iv : Vector U8 16) (b : List U8) (hb : b.length = 2 ^ 20) :
    ∃ c c' rs, Growing.csession ⟨.w32, true⟩ G iv [.init (List.replicate 16 1), .write b, .flush] = .ok (c, rs) ∧
      Growing.csession ⟨.w64, false⟩ G' iv [.init (List.replicate 16 1), .write b, .flush] = .ok (c', rs) := by
  have hw : ∀ n, 2 ^ 20 ≤ n → Enc.Within n ⟨none, iv.toList, []⟩ [.init (List.replicate 16 1), .write b, .flush] := by
    intro n hn
    exact ⟨by show 0 + b.length ≤ n; omega, trivial⟩
  obtain ⟨c, c0, rs, h1, h2⟩ := C98_cipher_model ⟨.w32, true⟩ ⟨.w32, true⟩ G iv _ (hw (2 ^ 30) (by decide))
  obtain ⟨c', c1, rs', h3, h4⟩ := C98_cipher_model ⟨.w64, false⟩ ⟨.w32, true⟩ G' iv _ (hw (2 ^ 62) (by decide))
  rw [h2] at h4
  cases h4
  exact ⟨c, c', rs, h1, h3⟩

end Verif.Props.GrowingSame
