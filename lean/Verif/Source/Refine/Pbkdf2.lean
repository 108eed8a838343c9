import Verif.Source.Refine.Hmac
import Verif.Model.Pbkdf2

/-! The function of `src/pbkdf2.rs` computes what the model says. -/

set_option linter.constructorNameAsVariable false
set_option backward.isDefEq.respectTransparency false

namespace Verif.Source
open Verif Verif.Sha256 Verif.Hmac Verif.Pbkdf2

variable (T : Target) (F d : Nat)

@[src] theorem src_HMac_update_ctr (s : HMac) (a b c e : U8) :
    call T crate F (d + 5) .hmac_HMac_update [encHMac s, .seq [.u8 a, .u8 b, .u8 c, .u8 e]] =
      up (s.update T [a, b, c, e]) >>= fun s => .ok (.unit, [encHMac s]) := src_HMac_update T F d s [a, b, c, e]

/-- The body of the loop over the iterations. -/
def iterStep (password : List U8) (_j : Nat) (s : Vector U8 32 × Vector U8 32) : M (Vector U8 32 × Vector U8 32) := do
  let hmac ← HMac.new T password
  let hmac ← hmac.update T s.1.toList
  let r ← hmac.digest T
  let t ← xorInto s.2 r.2
  return (r.2, t)

/-- The body of the loop over the blocks. -/
def blockStep (password salt : List U8) (c i : Nat) (out : List U8) : M (List U8) := do
  let hmac ← HMac.new T password
  let hmac ← hmac.update T salt
  let hmac ← hmac.update T [BitVec.ofNat 8 (i >>> 24), BitVec.ofNat 8 (i >>> 16), BitVec.ofNat 8 (i >>> 8), BitVec.ofNat 8 i]
  let r ← hmac.digest T
  let s ← forRangeIncl 2 c (r.2, r.2) (iterStep T password)
  let start ← T.mul (← T.sub i 1) 32
  let endm ← T.mul i 32
  let src ← slice s.2.toList 0 (← T.sub (min endm out.length) start)
  copyFromSlice out start (min endm out.length) src

theorem pbkdf2_model (password salt out : List U8) (c : Nat) :
    pbkdf2_sha256 T password salt c out = (T.add out.length 32 >>= fun n => T.sub n 1 >>= fun n =>
      forRangeIncl 1 (n / 32) out (blockStep T password salt c)) := by
  simp only [pbkdf2_sha256, derive_block, bind_assoc, DIGEST_SIZE]
  rfl

theorem blockStep_length (password salt out out' : List U8) (c i : Nat) (h : blockStep T password salt c i out = .ok out') :
    out'.length = out.length := by
  have bind_inv : ∀ {α β : Type} {x : M α} {f : α → M β} {b : β}, (x >>= f) = .ok b → ∃ a, f a = .ok b := by
    intro α β x f b h
    cases x with
    | error e => cases h
    | ok a => exact ⟨a, h⟩
  unfold blockStep at h
  iterate 10 obtain ⟨_, h⟩ := bind_inv h
  rw [copyFromSlice] at h
  split at h
  · rename_i hc
    split at h
    · cases h
      simp only [List.length_append, List.length_take, List.length_drop]
      omega
    · cases h
  · cases h

theorem src_pbkdf2 (password salt out : List U8) (c : Nat) (ho : out.length ≤ T.isizeMax) :
    call T crate F (d + 7) .pbkdf2_pbkdf2_sha256 [bytes password, bytes salt, .usize c, bytes out] =
      up (pbkdf2_sha256 T password salt c out) >>= fun o => .ok (.unit, [bytes o]) := by
  rw [call_pbkdf2_pbkdf2_sha256, pbkdf2_model]
  have hb : out.length + 32 < 2 ^ T.bits := by
    rcases T.bits_cases with h | h <;> simp only [Target.isizeMax, h] at ho ⊢ <;> omega
  evaluate [Gen.fn_pbkdf2_pbkdf2_sha256, usizeDiv, forLoop_map, T.add_ok hb, Small.sub]
  erw [forLoop_model_inv (fun o : List U8 => [(.l, .usize ((out.length + 31) / 32)), (.password, bytes password),
    (.salt, bytes salt), (.c, .usize c), (.out, bytes o)]) (fun o => o.length = out.length)
    (forRangeIncl 1 ((out.length + 31) / 32) out (blockStep T password salt c)) rfl rfl]
  · evaluate []
  · intro i hi o hl k
    simp [src] at hi
    have h1 : i * 32 < 2 ^ T.bits := by omega
    have h2 : (i - 1) * 32 < 2 ^ T.bits := by omega
    evaluate [blockStep, T.mul_ok h1, T.mul_ok h2, Small.sub, hl, forLoop_map, Small.ushr]
    refine R.bind_congr fun s1 => ?_
    refine R.bind_congr fun s2 => ?_
    refine R.bind_congr fun s3 => ?_
    refine R.bind_congr fun r => ?_
    erw [forLoop_model (fun s : Vector U8 32 × Vector U8 32 => [(.t, bytes s.2.toList), (.u, bytes s.1.toList),
      (.hmac, encHMac r.1), (.ctr, .seq [.u8 (BitVec.ofNat 8 (i >>> 24)), .u8 (BitVec.ofNat 8 (i >>> 16)),
        .u8 (BitVec.ofNat 8 (i >>> 8)), .u8 (BitVec.ofNat 8 i)]),
      (.i, .usize i), (.l, .usize ((out.length + 31) / 32)), (.password, bytes password),
      (.salt, bytes salt), (.c, .usize c), (.out, bytes o)])
      (forRangeIncl 2 c (r.2, r.2) (iterStep T password)) rfl]
    · have e1 : (i - 1) * 32 ≤ min (i * 32) out.length := by omega
      have e2 : min (i * 32) out.length ≤ out.length := by omega
      have e3 : min (i * 32) out.length - (i - 1) * 32 ≤ 32 := by omega
      evaluate [T.mul_ok h1, T.mul_ok h2, hl, show T.sub i 1 = _ from Small.sub T hi.1]
      generalize min (i * 32) out.length = e at *
      evaluate [Small.sub, copyFromSlice, slice, e1, e2, e3, show e ≤ 32 + (i - 1) * 32 by omega, hl, Nat.min_eq_left]
    · intro j _ s k
      evaluate [iterStep, forLoop_map]
      refine R.bind_congr fun s1 => ?_
      refine R.bind_congr fun s2 => ?_
      refine R.bind_congr fun r' => ?_
      erw [forLoop_model (fun t : Vector U8 32 => [(.hmac, encHMac r'.1), (._j, .usize j), (.t, bytes t.toList),
        (.u, bytes r'.2.toList),
        (.hmac, encHMac r.1), (.ctr, .seq [.u8 (BitVec.ofNat 8 (i >>> 24)), .u8 (BitVec.ofNat 8 (i >>> 16)),
          .u8 (BitVec.ofNat 8 (i >>> 8)), .u8 (BitVec.ofNat 8 i)]),
        (.i, .usize i), (.l, .usize ((out.length + 31) / 32)), (.password, bytes password),
        (.salt, bytes salt), (.c, .usize c), (.out, bytes o)]) (xorInto s.2 r'.2) rfl]
      · evaluate []
      · intro n hn t k
        simp [src] at hn
        evaluate [vidx_ok]
  · intro i hi o hl o' h
    rw [blockStep_length T _ _ _ _ _ _ h, hl]

end Verif.Source
