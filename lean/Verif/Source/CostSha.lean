import Verif.Source.Cost
import Verif.Source.Refine.Pbkdf2
import Verif.Proof.Counted

/-! How often the compression function is called by the functions of src/sha256.rs. -/

set_option linter.constructorNameAsVariable false
set_option backward.isDefEq.respectTransparency false

namespace Verif.Source
open Verif Verif.Sha256 Verif.Hmac Verif.Pbkdf2

variable (T : Target) (F d : Nat)

/-- The functions from which the compression function is not reached. -/
def noBlock : Fn → Bool
  | .sha256_SHA256_process_block | .sha256_SHA256_update | .sha256_SHA256_digest | .hmac_HMac_new | .hmac_HMac_update
  | .hmac_HMac_digest | .pbkdf2_pbkdf2_sha256 | .scrypt_Scrypt_derive => false
  | _ => true

theorem noBlock_closed : crate.closed noBlock .sha256_SHA256_process_block := by
  intro f
  cases f <;> decide +kernel

theorem no_block (f : Fn) (hf : noBlock f = true) (args : List Val) :
    calls .sha256_SHA256_process_block (callT T crate F d f args).1 = 0 := callT_avoids noBlock_closed T F d f hf args

theorem no_block_itself (args : List Val) :
    calls .sha256_SHA256_process_block (callT T crate F d .sha256_SHA256_process_block args).1 = 0 :=
  callT_avoids' noBlock_closed T F d _ (by decide +kernel) args

/-- The compression function. -/
local notation "PB" => Fn.sha256_SHA256_process_block

attribute [local src] calls_append calls_cons calls_nil Event.isCall no_block_itself

theorem updateByte_ok (b : U8) (st st' : SHA256 × Vector U32 16) (h : SHA256.updateByte T b st = .ok st') :
    ∃ buffer length, vupd st.1.buffer (st.1.length % 64) b = .ok buffer ∧ T.add st.1.length 1 = .ok length ∧
      (length % 64 ≠ 0 → st' = (⟨st.1.h, buffer, length⟩, st.2)) ∧
      (length % 64 = 0 → ∃ block s', fill_block buffer st.2 = .ok block ∧
        SHA256.process_block ⟨st.1.h, buffer, length⟩ block = .ok s' ∧ st' = (s', block)) := by
  unfold SHA256.updateByte at h
  obtain ⟨buffer, h1, h⟩ := Counted.bind_ok h
  obtain ⟨length, h2, h⟩ := Counted.bind_ok h
  refine ⟨buffer, length, h1, h2, fun hl => ?_, fun hl => ?_⟩
  · rw [if_pos (by simpa [BLOCK_SIZE] using hl)] at h
    cases h; rfl
  · rw [if_neg (by simpa [BLOCK_SIZE] using hl)] at h
    obtain ⟨block, h3, h⟩ := Counted.bind_ok h
    obtain ⟨s', h4, h⟩ := Counted.bind_ok h
    cases h
    exact ⟨block, s', h3, h4, rfl⟩

theorem calls_update (self : SHA256) (data : List U8) (s : SHA256) (h : self.update T data = .ok s) :
    calls PB (callT T crate F (d + 4) .sha256_SHA256_update [encSha self, bytes data]).1 = (self.length % 64 + data.length) / 64 := by
  show calls PB (evalT (ctxT T F (d + 3)) Gen.fn_sha256_SHA256_update.body [(.self, encSha self), (.data, bytes data)]).1 = _
  evaluate [Gen.fn_sha256_SHA256_update, ctxT_erase, usizeDiv]
  obtain ⟨st, h, -⟩ := Counted.bind_ok h
  erw [loop_calls (g := .sha256_SHA256_process_block) Val.u8
    (fun st : SHA256 × Vector U32 16 => [(.block, words st.2.toList), (.self, encSha st.1), (.data, bytes data)])
    (SHA256.updateByte T) (fun _ => True) (fun n s => (s.1.length % 64 + n) / 64) data (fun s => by omega) ?_ ?_
    (self, Vector.replicate 16 0#32) trivial st h]
  · intro b _ st _ k
    evaluate [Target.rem, BLOCK_SIZE, SHA256.updateByte]
  · intro b _ n st st' _ h
    refine ⟨?_, trivial⟩
    have hl := (Counted.costs_updateByte T b st).2 st' h
    obtain ⟨buffer, length, h1, h2, h3, h4⟩ := updateByte_ok T b st st' h
    have hm := Counted.add_mod64 T _ _ _ h2
    by_cases hz : length % 64 = 0
    · obtain ⟨block, s', h5, h6, rfl⟩ := h4 hz
      evaluate [Target.rem, BLOCK_SIZE, ctxT_erase, h1, h2, hz, h5, h6]
      simp only [no_block T F _ .sha256_fill_block rfl]
      simp only at hl
      omega
    · obtain rfl := h3 hz
      evaluate [Target.rem, BLOCK_SIZE, ctxT_erase, h1, h2, hz]
      omega

attribute [-src] trace_for
attribute [local src] trace_for'

theorem loop_free {p : Pat} {body : Expr} {step : Val → E Val} {xs : List Val} {env : Env} (h : avoids noBlock body = true) :
    calls PB (loopTr (seenOfPat (ctxT T F d) p body) step xs env) = 0 := by
  induction xs generalizing env with
  | nil => rfl
  | cons x xs ih =>
    rw [loopTr_cons, calls_append, calls_after _ _ fun _ _ => ih, seenOfPat, calls_after]
    intro _ env
    exact evalT_zero (S := noBlock) (K := ctxT T F d) (fun f vs hf => ⟨(noBlock_closed f hf).1, no_block T F d f hf vs⟩) _ h env

attribute [local src] trace_place_sliceFrom

theorem calls_digest (self s : SHA256) (out : Vector U8 32) (h : self.digest T = .ok (s, out)) :
    calls PB (callT T crate F (d + 4) .sha256_SHA256_digest [encSha self]).1 = (self.length % 64 + 8) / 64 + 1 := by
  show calls PB (evalT (ctxT T F (d + 3)) Gen.fn_sha256_SHA256_digest.body [(.self, encSha self)]).1 = _
  evaluate [Gen.fn_sha256_SHA256_digest, ctxT_erase, forLoop_map, usizeDiv, Target.rem, BLOCK_SIZE]
  unfold SHA256.digest at h
  dsimp only [BLOCK_SIZE] at h
  simp only [BitVec.ofNat_eq_ofNat] at h
  generalize Vector.replicate 16 0#32 = z at h ⊢
  rw [loop_free (h := by decide +kernel)]
  obtain ⟨b, hb, h⟩ := Counted.bind_ok h
  have hl : self.length % 64 < 64 := Nat.mod_lt _ (by decide)
  erw [forLoop_model (fun b : Vector U8 64 => [(.off, .usize (self.length % 64)),
    (.block, words z.toList), (.self, encSha { self with buffer := b })])
    (forRange (self.length % 64) 64 self.buffer fun i b => vupd b i 0) rfl]
  · simp only [BitVec.ofNat_eq_ofNat]
    rw [hb]
    by_cases hov : 64 < self.length % 64 + 9
    · rw [if_pos hov] at h
      obtain ⟨⟨self', z', off⟩, h1, h⟩ := Counted.bind_ok h
      obtain ⟨v, h2, h1⟩ := Counted.bind_ok h1
      obtain ⟨b', h3, h1⟩ := Counted.bind_ok h1
      obtain ⟨z1, h4, h1⟩ := Counted.bind_ok h1
      obtain ⟨s1, h5, h1⟩ := Counted.bind_ok h1
      cases h1
      obtain ⟨bitlen, h6, h⟩ := Counted.bind_ok h
      obtain ⟨b2, h7, h⟩ := Counted.bind_ok h
      rw [if_neg (by simp [hov])] at h
      obtain ⟨s2, h8, h⟩ := Counted.bind_ok h
      cases h8
      obtain ⟨z2, h9, h⟩ := Counted.bind_ok h
      obtain ⟨s3, h10, h⟩ := Counted.bind_ok h
      rw [withLength_model] at h7
      cases h7
      simp only at h2 h3 h4 h5 h6 h9 h10
      evaluate [Small.add, Small.sub, hov, h2, h3, h4, h5, h6, h9, h10, withLength_model, slice_vector_end, src_write_end, withLength_val,
        forLoop_map, ctxT_erase]
      simp only [no_block T F _ .sha256_fill_block rfl, no_block T F _ .sha256_write_u64_be rfl]
      rw [loop_free (h := by decide +kernel), calls_after _ _ fun _ _ => by evaluate []]
      omega
    · rw [if_neg hov] at h
      obtain ⟨⟨self', z', off⟩, h1, h⟩ := Counted.bind_ok h
      cases h1
      obtain ⟨bitlen, h6, h⟩ := Counted.bind_ok h
      obtain ⟨b2, h7, h⟩ := Counted.bind_ok h
      rw [if_pos (by simpa using hov)] at h
      obtain ⟨s2, h8, h⟩ := Counted.bind_ok h
      obtain ⟨v, h2, h8⟩ := Counted.bind_ok h8
      obtain ⟨b', h3, h8⟩ := Counted.bind_ok h8
      cases h8
      obtain ⟨z2, h9, h⟩ := Counted.bind_ok h
      obtain ⟨s3, h10, h⟩ := Counted.bind_ok h
      rw [withLength_model] at h7
      cases h7
      simp only at h2 h3 h6 h9 h10
      evaluate [Small.add, Small.sub, hov, h2, h3, h6, h9, h10, withLength_model, slice_vector_end, src_write_end, withLength_val,
        forLoop_map, ctxT_erase]
      simp only [no_block T F _ .sha256_fill_block rfl, no_block T F _ .sha256_write_u64_be rfl]
      rw [loop_free (h := by decide +kernel), calls_after _ _ fun _ _ => by evaluate []]
      omega
  · intro i _ b k
    evaluate []

end Verif.Source
