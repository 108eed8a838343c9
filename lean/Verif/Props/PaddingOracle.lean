import Verif.Props.SideChannel

/-!
C75: what an observer of the execution learns from the padding check of `Decipher::flush`.

The observer is the one of `Verif/Source/Leak.lean`. The last decrypted block is held back until `flush`, which checks its padding.
-/

set_option linter.constructorNameAsVariable false

namespace Verif.Props.PaddingOracle
open Verif Verif.Aes Verif.AesCbc Verif.Pkcs7 Verif.Source Verif.Props.ConstantTime Verif.Props.Source Spec.Cbc

/-- What is seen of a method called after a history of other methods on the same object. -/
def seenAfter (T : Target) (fuel depth : Nat) : Val → List (Fn × List Val) → Fn × List Val → Trace
  | obj, [], c => (invokeT T fuel depth obj c).1
  | obj, x :: xs, c =>
    match invoke T fuel depth obj x with
    | .ok (obj', _) => seenAfter T fuel depth obj' xs c
    | .error _ => []

/-- What is seen of `flush` on a `Decipher` made with `iv` after some calls. -/
def seenOfFlush (T : Target) (fuel depth : Nat) (iv : Vector U8 16) (calls : List Spec.Cbc.Call) : Trace :=
  match call T crate fuel depth .aes_cbc_Decipher_new [bytes iv.toList] with
  | .ok (obj, _) => seenAfter T fuel depth obj (calls.map decipherCall) (.aes_cbc_Decipher_flush, [])
  | .error _ => []

/-- What can be learned from the padding check of the block held back. -/
inductive Learned where
  /-- there is no block -/
  | nothing
  /-- its last byte is over 16 -/
  | tooLarge
  /-- its last byte is `last`, and whether the last `last` bytes are all equal to it -/
  | checked (last : U8) (good : Bool)
deriving DecidableEq

/-- What an observer learns of the block `held`. -/
def learned (held : List U8) : Learned :=
  match held.getLast? with
  | none => .nothing
  | some v => if v.toNat > 16 then .tooLarge else .checked v ((held.drop (16 - v.toNat)).all (· == v))

/-- The block held back after a history of calls. -/
def heldAfter (iv : Vector U8 16) (calls : List Spec.Cbc.Call) : List U8 :=
  ((⟨none, iv.toList, [], []⟩ : Dec).run calls).1.held

theorem unpadTrace_inj {v w : U8} {b c : Bool} {r r' : Trace} (h : unpadTrace v b ++ r = unpadTrace w c ++ r') :
    (v.toNat > 16 ∧ w.toNat > 16) ∨ (v = w ∧ v.toNat ≤ 16 ∧ b = c) := by
  unfold unpadTrace at h
  by_cases hv : v.toNat > 16 <;> by_cases hw : w.toNat > 16
  · exact .inl ⟨hv, hw⟩
  · simp [hv, hw] at h
  · simp [hv, hw] at h
  · simp [hv, hw] at h
    exact .inr ⟨BitVec.eq_of_toNat_eq h.2.1, by omega, h.2.2.1⟩

theorem getLast_16 (s : List U8) (hs : s.length = 16) : s.getLast? = some (s.getD 15 0) := by
  rw [List.getLast?_eq_getElem?, hs]
  simp [show 15 < s.length by omega]

theorem flush_iff (T : Target) (F d : Nat) (c c' : Decipher) (s s' : List U8) (hs : s = [] ∨ s.length = 16)
    (hs' : s' = [] ∨ s'.length = 16) (hc : c.unpad = ⟨16, s⟩) (hc' : c'.unpad = ⟨16, s'⟩) :
    (callT T crate F (d + 2) .aes_cbc_Decipher_flush [encDecipher c]).1 =
      (callT T crate F (d + 2) .aes_cbc_Decipher_flush [encDecipher c']).1 ↔ learned s = learned s' := by
  have key : ∀ s : List U8, s.length = 16 → learned s =
      if (s.getD 15 0).toNat > 16 then .tooLarge
      else .checked (s.getD 15 0) (!(decide (∃ b ∈ s.drop (16 - (s.getD 15 0).toNat), b ≠ s.getD 15 0))) := by
    intro s hs
    rw [learned, getLast_16 s hs]
    simp only
    congr 2
    rw [Bool.eq_iff_iff]
    simp
  have empty : ∀ (c : Decipher) (s : List U8), s.length = 16 → c.unpad = ⟨16, s⟩ →
      (callT T crate F (d + 2) .aes_cbc_Decipher_flush [encDecipher c]).1 ≠
        [.call .pkcs7_Unpad_flush, .sizes [0], .branch true, .branch true] ∧ learned s ≠ .nothing := by
    intro c s hs hc
    constructor
    · rw [trace_Decipher_flush T F d c s hs hc, unpadTrace]
      simp
    · rw [key s hs]
      split <;> simp
  rcases hs with rfl | hs <;> rcases hs' with rfl | hs'
  · rw [trace_Decipher_flush_empty T F d c hc, trace_Decipher_flush_empty T F d c' hc']
    simp
  · rw [trace_Decipher_flush_empty T F d c hc]
    exact ⟨fun h => absurd h.symm (empty c' s' hs' hc').1, fun h => absurd h.symm (empty c' s' hs' hc').2⟩
  · rw [trace_Decipher_flush_empty T F d c' hc']
    exact ⟨fun h => absurd h (empty c s hs hc).1, fun h => absurd h (empty c s hs hc).2⟩
  rw [trace_Decipher_flush T F d c s hs hc, trace_Decipher_flush T F d c' s' hs' hc', key s hs, key s' hs']
  have ok : ∀ (s : List U8) v, padOk 16 s v ↔ v.toNat ≤ 16 ∧ decide (∃ b ∈ s.drop (16 - v.toNat), b ≠ v) = false := by
    intro s v
    simp [padOk]
  simp only [ok]
  generalize s.getD 15 0 = v
  generalize s'.getD 15 0 = w
  generalize decide (∃ b ∈ s.drop (16 - v.toNat), b ≠ v) = p
  generalize decide (∃ b ∈ s'.drop (16 - w.toNat), b ≠ w) = q
  constructor
  · intro h
    rcases unpadTrace_inj (List.cons.inj h).2 with ⟨h1, h2⟩ | ⟨rfl, h2, rfl⟩
    · rw [if_pos h1, if_pos h2]
    · rfl
  · intro h
    by_cases hv : v.toNat > 16 <;> by_cases hw : w.toNat > 16
    · simp [unpadTrace, hv, hw, Nat.not_le.2 hv, Nat.not_le.2 hw]
    · simp [hv, hw] at h
    · simp [hv, hw] at h
    · simp [hv, hw] at h
      obtain ⟨rfl, h⟩ := h
      rw [h]

theorem seenAfter_flush (T : Target) (F d : Nat) (calls : List Spec.Cbc.Call) (hx : ∀ x ∈ calls, Reasonable T x) (c : Decipher) (e : Dec)
    (h : DMatches c e) (hr : c.aes.round_count ≤ 14) :
    ∃ c', DMatches c' (e.run calls).1 ∧
      seenAfter T (F + 65) (d + 8) (encDecipher c) (calls.map decipherCall) (.aes_cbc_Decipher_flush, []) =
        .call .aes_cbc_Decipher_flush :: (callT T crate (F + 65) (d + 8) .aes_cbc_Decipher_flush [encDecipher c']).1 := by
  induction calls generalizing c e with
  | nil => exact ⟨c, h, rfl⟩
  | cons x xs ih =>
    obtain ⟨c1, h1, h2, h3⟩ := decipher_invoke T F d c e h hr x (hx x (by simp))
    obtain ⟨c', h4, h5⟩ := ih (fun y hy => hx y (by simp [hy])) c1 _ h2 h3
    refine ⟨c', h4, ?_⟩
    rw [List.map_cons, seenAfter, h1]
    exact h5

/-- **C75.** Whoever sees the execution of `Decipher::flush` learns exactly this of the block that was held back: whether there is one,
whether its last byte is over 16, and if not, that byte and whether the padding it asks for is right. Two executions look the same if and
only if these agree, whatever the keys, the ciphertexts and the calls before were. In particular the byte is seen also when the padding is
wrong and `flush` only answers `InvalidPadding`; which of the padding bytes is wrong, and the bytes before them, are not seen. -/
theorem C75_padding (T : Target) (fuel depth : Nat) (hf : 65 ≤ fuel) (hd : 8 ≤ depth) (iv iv' : Vector U8 16)
    (calls calls' : List Spec.Cbc.Call) (hx : ∀ x ∈ calls, Reasonable T x) (hx' : ∀ x ∈ calls', Reasonable T x) :
    seenOfFlush T fuel depth iv calls = seenOfFlush T fuel depth iv' calls' ↔
      learned (heldAfter iv calls) = learned (heldAfter iv' calls') := by
  obtain ⟨d, rfl⟩ := Nat.exists_eq_add_of_le' hd
  obtain ⟨F, rfl⟩ := Nat.exists_eq_add_of_le' hf
  have h0 : ∀ iv : Vector U8 16, DMatches (Decipher.new iv) ⟨none, iv.toList, [], []⟩ :=
    fun iv => ⟨rfl, rfl, rfl, by simp, rfl, Or.inl rfl⟩
  obtain ⟨c, h1, h2⟩ := seenAfter_flush T F d calls hx (.new iv) _ (h0 iv) (by show 0 ≤ 14; decide)
  obtain ⟨c', h1', h2'⟩ := seenAfter_flush T F d calls' hx' (.new iv') _ (h0 iv') (by show 0 ≤ 14; decide)
  rw [seenOfFlush, seenOfFlush, src_Decipher_new T (F + 65) (d + 6), src_Decipher_new T (F + 65) (d + 6)]
  show seenAfter T (F + 65) (d + 8) (encDecipher (.new iv)) _ _ = seenAfter T (F + 65) (d + 8) (encDecipher (.new iv')) _ _ ↔ _
  rw [h2, h2', List.cons.injEq]
  simp only [true_and]
  exact flush_iff T (F + 65) (d + 6) c c' _ _ h1.2.2.2.2.2 h1'.2.2.2.2.2 h1.2.2.2.2.1 h1'.2.2.2.2.1

/-- Every block can be the one held back: it is after its encryption was written. -/
theorem held_of_encrypted (key : List U8) (hk : validKey key) (iv : Vector U8 16) (p : List U8) (hp : p.length = 16) :
    heldAfter iv [.init key, .write (encrypt key iv.toList p)] = p := by
  have hl : (encrypt key iv.toList p).length = 16 := by rw [encrypt_length, hp]
  have hd := decrypt_encrypt key iv.toList p (by simp) (by omega)
  simp only [heldAfter, Dec.run, Dec.step, if_pos hk, List.nil_append, hl, hd, Prod.map, id]
  simp [hp]

/-- Three blocks that C75 tells apart, or not, in a `Decipher` with any key: all three have a wrong padding. The first two look the same,
because only the place of the wrong byte differs; the third differs in its last byte. -/
def block (tail : List U8) : List U8 := List.replicate (16 - tail.length) 7 ++ tail

example (T : Target) (key : List U8) (hk : validKey key) (iv : Vector U8 16) :
    let seen := fun p => seenOfFlush T 65 8 iv [.init key, .write (encrypt key iv.toList p)]
    seen (block [4, 0, 4, 4]) = seen (block [4, 4, 0, 4]) ∧ seen (block [4, 0, 4, 4]) ≠ seen (block [5, 5, 5, 0, 5]) ∧
    seen (block [2, 2]) ≠ seen (block [3, 2]) ∧ seen (block [17]) = seen (block [255]) := by
  have hx : ∀ p : List U8, p.length = 16 → ∀ x ∈ [Spec.Cbc.Call.init key, .write (encrypt key iv.toList p)], Reasonable T x := by
    intro p hp x hx b hb
    subst hb
    obtain rfl : b = encrypt key iv.toList p := by simpa using hx
    rw [encrypt_length, hp]
    rcases T with ⟨w, c⟩
    cases w <;> simp [Target.isizeMax, Target.bits, Width.bits]
  have key : ∀ p q : List U8, p.length = 16 → q.length = 16 →
      (seenOfFlush T 65 8 iv [.init key, .write (encrypt key iv.toList p)] =
        seenOfFlush T 65 8 iv [.init key, .write (encrypt key iv.toList q)] ↔ learned p = learned q) := by
    intro p q hp hq
    rw [C75_padding T 65 8 (by omega) (by omega) _ _ _ _ (hx p hp) (hx q hq), held_of_encrypted key hk iv p hp,
      held_of_encrypted key hk iv q hq]
  intro seen
  simp only [seen, Ne]
  rw [key _ _ rfl rfl, key _ _ rfl rfl, key _ _ rfl rfl, key _ _ rfl rfl]
  decide

end Verif.Props.PaddingOracle
