import Verif.Source.CostSha

/-! How often the compression function is called by the functions of src/hmac.rs and src/pbkdf2.rs. -/

set_option linter.constructorNameAsVariable false
set_option backward.isDefEq.respectTransparency false

namespace Verif.Source
open Verif Verif.Sha256 Verif.Hmac Verif.Pbkdf2

variable (T : Target) (F d : Nat)

/-- The compression function. -/
local notation "PB" => Fn.sha256_SHA256_process_block

attribute [-src] trace_for
attribute [local src] calls_append calls_cons calls_nil Event.isCall no_block_itself trace_for' trace_place_sliceFrom trace_place_sliceTo

theorem calls_update' (h : Vector U32 8) (buffer : Vector U8 64) (length : Nat) (data : List U8) (s : SHA256)
    (hs : SHA256.update T ⟨h, buffer, length⟩ data = .ok s) :
    calls PB (callT T crate F (d + 4) .sha256_SHA256_update [encSha' h buffer length, bytes data]).1 = (length % 64 + data.length) / 64 :=
  calls_update T F d ⟨h, buffer, length⟩ data s hs

attribute [-src] trace_forMut mutTr
attribute [local src] trace_forMut'

theorem loopMut_free {p : Path} {x : Id} {body : Expr} {step : Nat → E Val} {xs : List Nat} {env : Env} (h : avoids noBlock body = true) :
    calls PB (loopTr (mutTr p x [] (seenOf (ctxT T F d) body)) step xs env) = 0 := by
  induction xs generalizing env with
  | nil => rfl
  | cons k xs ih =>
    rw [loopTr_cons, calls_append, calls_after _ _ fun _ _ => ih, mutTr, calls_after]
    intro _ env
    exact evalT_zero (S := noBlock) (K := ctxT T F d) (fun f vs hf => ⟨(noBlock_closed f hf).1, no_block T F d f hf vs⟩) _ h _

theorem calls_newShort (key : List U8) (hk : key.length ≤ 64) (s : HMac) (h : HMac.newShort T key = .ok s) :
    calls PB (callT T crate F (d + 5) .hmac_HMac_new [bytes key]).1 = 2 := by
  show calls PB (evalT (ctxT T F (d + 4)) Gen.fn_hmac_HMac_new.body [(.key, bytes key)]).1 = _
  have hs : ((Vector.replicate 64 0#8).toList.take key.length).length = key.length := by
    simp [-List.reduceReplicate]; omega
  have hb : key ++ List.drop key.length (Vector.replicate 64 0#8).toList = key ++ List.replicate (64 - key.length) 0#8 := by
    simp [-List.reduceReplicate]
  have hl : (key ++ List.replicate (64 - key.length) 0#8).length = 64 := by simp [-List.reduceReplicate]; omega
  have hc : copyFromSlice (List.replicate BLOCK_SIZE (0 : U8)) 0 key.length key = .ok (key ++ List.replicate (64 - key.length) 0#8) := by
    simp [copyFromSlice, BLOCK_SIZE, -List.reduceReplicate, hk]
  unfold HMac.newShort at h
  rw [hc] at h
  evaluate [Gen.fn_hmac_HMac_new, ctxT_erase, hk, show ¬ 64 < key.length by omega, copyFromSlice, slice, hs, BLOCK_SIZE,
    List.drop_replicate, hb]
  generalize key ++ List.replicate (64 - key.length) 0#8 = b at *
  replace h : (SHA256.new.update T (b.map fun e => e ^^^ 54#8) >>= fun inner => SHA256.new.update T ((b.map fun e => e ^^^ 54#8).map fun e => e ^^^ 106#8) >>=
    fun outer => pure { inner := inner, outer := outer }) = .ok s := h
  obtain ⟨inner, h1, h⟩ := Counted.bind_ok h
  obtain ⟨outer, h2, h⟩ := Counted.bind_ok h
  have hi := calls_update T F d _ _ _ h1
  have ho := calls_update T F d _ _ _ h2
  rw [List.length_map, hl] at hi
  rw [List.length_map, List.length_map, hl] at ho
  rw [loopMut_free (h := by decide +kernel)]
  erw [forLoop_iterMap (fun b => [(.outer, encSha SHA256.new), (.inner, encSha SHA256.new), (.block, bytes b),
    (.key, bytes key)]) (fun e => e ^^^ 54#8) hl.symm]
  · evaluate [ctxT_erase, h1, hl]
    rw [loopMut_free (h := by decide +kernel)]
    erw [forLoop_iterMap (fun b => [(.outer, encSha SHA256.new), (.inner, encSha inner), (.block, bytes b),
      (.key, bytes key)]) (xs := b.map fun e => e ^^^ 54#8) (fun e => e ^^^ 106#8) (by simp [hl])]
    · evaluate [ctxT_erase, h2]
      simp only [no_block T F _ .sha256_SHA256_new rfl, Nat.zero_add]
      exact congr (congrArg HAdd.hAdd hi) ho
    · intro i hi s k
      evaluate []
  · intro i hi s k
    evaluate []

theorem calls_HMac_new (key : List U8) (s : HMac) (h : HMac.new T key = .ok s) :
    calls PB (callT T crate F (d + 6) .hmac_HMac_new [bytes key]).1 = Counted.keyCost key + 2 := by
  by_cases hk : key.length ≤ 64
  · rw [HMac.new, if_neg (by simpa [BLOCK_SIZE] using hk)] at h
    rw [calls_newShort T F _ _ hk s h, Counted.keyCost, if_neg (by omega)]
  · rw [HMac.new, if_pos (by simpa [BLOCK_SIZE] using hk)] at h
    obtain ⟨s1, h1, h⟩ := Counted.bind_ok h
    obtain ⟨⟨s2, v⟩, h2, h⟩ := Counted.bind_ok h
    show calls PB (evalT (ctxT T F (d + 5)) Gen.fn_hmac_HMac_new.body [(.key, bytes key)]).1 = _
    have h3 := calls_newShort T F d v.toList (by simp) s h
    have h4 := calls_update T F (d + 1) _ _ _ h1
    have h5 := calls_digest T F (d + 1) _ _ _ h2
    replace h : HMac.newShort T v.toList = .ok s := h
    have h6 := src_HMac_newShort T F d v.toList (by simp)
    rw [h, up_ok, R.ok_bind] at h6
    evaluate [Gen.fn_hmac_HMac_new, ctxT_erase, show 64 < key.length by omega, BLOCK_SIZE, h1, h2, h6]
    simp only [no_block T F _ .sha256_SHA256_new rfl, Nat.zero_add]
    refine (congr (congrArg HAdd.hAdd h4) (congr (congrArg HAdd.hAdd h5) h3)).trans ?_
    have h7 := (Counted.costs_update T _ _).2 _ h1
    change _ = (0 + _) % 64 at h7
    rw [h7, Counted.keyCost, if_pos (by omega)]
    show (0 % 64 + key.length) / 64 + _ = _
    omega

theorem calls_HMac_update (self : HMac) (m : Nat) (hm : Counted.Aligned self m) (data : List U8) (s : HMac)
    (h : self.update T data = .ok s) :
    calls PB (callT T crate F (d + 5) .hmac_HMac_update [encHMac self, bytes data]).1 = (m % 64 + data.length) / 64 := by
  rw [← hm.1]
  unfold HMac.update at h
  obtain ⟨s1, h1, h⟩ := Counted.bind_ok h
  have h2 := calls_update T F d _ _ _ h1
  show calls PB (evalT (ctxT T F (d + 4)) Gen.fn_hmac_HMac_update.body [(.self, encHMac self), (.data, bytes data)]).1 = _
  evaluate [Gen.fn_hmac_HMac_update, ctxT_erase, encHMac, h1]
  exact h2

theorem calls_HMac_digest (self : HMac) (m : Nat) (hm : Counted.Aligned self m) (r : HMac × Vector U8 32) (h : self.digest T = .ok r) :
    calls PB (callT T crate F (d + 5) .hmac_HMac_digest [encHMac self]).1 = (m % 64 + 8) / 64 + 2 := by
  unfold HMac.digest at h
  obtain ⟨⟨s1, v⟩, h1, h⟩ := Counted.bind_ok h
  obtain ⟨s2, h2, h⟩ := Counted.bind_ok h
  obtain ⟨⟨s3, w⟩, h3, h⟩ := Counted.bind_ok h
  have e1 := calls_digest T F d _ _ _ h1
  have e2 := calls_update T F d _ _ _ h2
  have e3 := calls_digest T F d _ _ _ h3
  show calls PB (evalT (ctxT T F (d + 4)) Gen.fn_hmac_HMac_digest.body [(.self, encHMac self)]).1 = _
  evaluate [Gen.fn_hmac_HMac_digest, ctxT_erase, encHMac, h1, h2, h3]
  refine (congr (congrArg HAdd.hAdd e1) (congr (congrArg HAdd.hAdd e2) e3)).trans ?_
  have h7 := (Counted.costs_update T _ _).2 _ h2
  rw [h7, hm.1, hm.2, Vector.length_toList, Nat.add_mod, hm.2]

end Verif.Source
