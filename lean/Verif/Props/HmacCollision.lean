import Verif.Props.FromText
import Verif.Props.Sha256Structure

/-!
Property C90: two uses of HMAC with the same result are the same use, or show a collision of the compression function of SHA-256.
-/

namespace Verif.Props.HmacCollision
open Verif Verif.Source Verif.Text Verif.Props.Source Verif.Props.FromText Verif.Props.Sha256 Spec.Sha256

/-- What HMAC hashes first: the padded key combined with `0x36`, then the message. -/
def innerText (key m : List U8) : List U8 := (Spec.hmacKey Spec.Sha256.sha256 key).map (· ^^^ 0x36) ++ m

/-- What HMAC hashes then: the padded key combined with `0x5c`, then the first digest. -/
def outerText (key m : List U8) : List U8 :=
  (Spec.hmacKey Spec.Sha256.sha256 key).map (· ^^^ 0x5c) ++ Spec.Sha256.sha256 (innerText key m)

theorem hmac_eq (key m : List U8) : Spec.hmac Spec.Sha256.sha256 key m = Spec.Sha256.sha256 (outerText key m) := rfl

theorem bytes_inj {a b : List U8} (h : bytes a = bytes b) : a = b := by
  simp only [bytes, Val.seq.injEq] at h
  exact (List.map_inj_right fun _ _ e => by injection e).1 h

theorem hmacKey_length (key : List U8) : (Spec.hmacKey Spec.Sha256.sha256 key).length = 64 := by
  rw [Spec.hmacKey]
  split
  · simp
  · simp; omega

theorem xor_inj (c : U8) {a b : List U8} (h : a.map (· ^^^ c) = b.map (· ^^^ c)) : a = b := by
  have := congrArg (List.map (· ^^^ c)) h
  simpa [List.map_map, Function.comp_def, BitVec.xor_assoc] using this

theorem hmac_collision (key key' m m' : List U8) (hm : 8 * (64 + m.length) < 2 ^ 64) (hm' : 8 * (64 + m'.length) < 2 ^ 64)
    (h : Spec.hmac Spec.Sha256.sha256 key m = Spec.hmac Spec.Sha256.sha256 key' m') :
    (Spec.hmacKey Spec.Sha256.sha256 key = Spec.hmacKey Spec.Sha256.sha256 key' ∧ m = m') ∨
    CollisionIn (innerText key m) (innerText key' m') ∨ CollisionIn (outerText key m) (outerText key' m') := by
  rw [hmac_eq, hmac_eq] at h
  by_cases ho : outerText key m = outerText key' m'
  · obtain ⟨h1, h2⟩ := List.append_inj ho (by simp [hmacKey_length])
    have hk := xor_inj _ h1
    by_cases hi : innerText key m = innerText key' m'
    · exact .inl ⟨hk, (List.append_inj hi (by simp [hmacKey_length])).2⟩
    · refine .inr (.inl (sha256_collision _ _ hi ?_ ?_ h2))
      · simpa [innerText, hmacKey_length] using hm
      · simpa [innerText, hmacKey_length] using hm'
  · refine .inr (.inr (sha256_collision _ _ ho ?_ ?_ h)) <;> simp [outerText, hmacKey_length]

/-- **C90.** If `HMac`s of the program in the text, with keys `key` and `key'`, give the same digest for two messages, each written in any
pieces, then the messages are equal and so are the keys after they are brought to 64 bytes, or the two computations contain a collision of
the compression function of SHA-256, in what they hash first or in what they hash then. -/
theorem C90_collision {p : Program} (hp : IsProgram Files.lib sources p) (T : Target) (fuel depth : Nat) (hd : 8 ≤ depth)
    (key key' : List U8) (chunks chunks' : List (List U8)) (us us' : List Val) (v : Val)
    (hk : 8 * key.length < 2 ^ T.bits) (hm : 8 * (64 + chunks.flatten.length) < 2 ^ T.bits)
    (hk' : 8 * key'.length < 2 ^ T.bits) (hm' : 8 * (64 + chunks'.flatten.length) < 2 ^ T.bits)
    (h : sessionIn p T fuel depth (.hmac_HMac_new, [bytes key])
        (chunks.map (fun c => (.hmac_HMac_update, [bytes c])) ++ [(.hmac_HMac_digest, [])]) = .ok (us ++ [v]))
    (h' : sessionIn p T fuel depth (.hmac_HMac_new, [bytes key'])
        (chunks'.map (fun c => (.hmac_HMac_update, [bytes c])) ++ [(.hmac_HMac_digest, [])]) = .ok (us' ++ [v])) :
    (Spec.hmacKey Spec.Sha256.sha256 key = Spec.hmacKey Spec.Sha256.sha256 key' ∧ chunks.flatten = chunks'.flatten) ∨
    CollisionIn (innerText key chunks.flatten) (innerText key' chunks'.flatten) ∨
    CollisionIn (outerText key chunks.flatten) (outerText key' chunks'.flatten) := by
  rw [C86_hmac hp T fuel depth hd key chunks hk hm] at h
  rw [C86_hmac hp T fuel depth hd key' chunks' hk' hm'] at h'
  have e := (List.append_inj' (Except.ok.inj h) rfl).2
  have e' := (List.append_inj' (Except.ok.inj h') rfl).2
  rw [← e'] at e
  have h64 : 2 ^ T.bits ≤ 2 ^ 64 := Nat.pow_le_pow_right (by decide) (by rcases T.bits_cases with e | e <;> omega)
  exact hmac_collision _ _ _ _ (by omega) (by omega) (bytes_inj (List.singleton_inj.1 e))

/-- **C90.** When are two keys equal after they are brought to 64 bytes: keys of up to 64 bytes, when one is the other followed by zeros; keys
of more than 64 bytes, when they are equal or contain a collision of the compression function. -/
theorem C90_keys (key key' : List U8) (h : Spec.hmacKey Spec.Sha256.sha256 key = Spec.hmacKey Spec.Sha256.sha256 key') :
    (key.length ≤ 64 → key'.length ≤ 64 → (∃ n, key' = key ++ List.replicate n 0) ∨ ∃ n, key = key' ++ List.replicate n 0) ∧
    (64 < key.length → 64 < key'.length → 8 * key.length < 2 ^ 64 → 8 * key'.length < 2 ^ 64 → key = key' ∨ CollisionIn key key') := by
  rw [Spec.hmacKey, Spec.hmacKey] at h
  constructor
  · intro h1 h2
    rw [if_neg (by omega), if_neg (by omega)] at h
    have aux : ∀ a b : List U8, a.length ≤ b.length → b.length ≤ 64 →
        a ++ List.replicate (64 - a.length) 0 = b ++ List.replicate (64 - b.length) 0 → b = a ++ List.replicate (b.length - a.length) 0 := by
      intro a b hab hb e
      have e := congrArg (List.take b.length) e
      rw [List.take_append, List.take_of_length_le hab, List.take_replicate, List.take_left] at e
      conv_lhs => rw [← e]
      congr 2
      omega
    rcases Nat.le_total key.length key'.length with hl | hl
    · exact .inl ⟨_, aux _ _ hl h2 h⟩
    · exact .inr ⟨_, aux _ _ hl h1 h.symm⟩
  · intro h1 h2 h3 h4
    rw [if_pos h1, if_pos h2] at h
    by_cases e : key = key'
    · exact .inl e
    · exact .inr (sha256_collision _ _ e h3 h4 (List.append_inj h (by simp)).1)

/-- Two keys that `HMac` cannot tell apart, so the first case of `C90_collision` is met with different keys. -/
example : Spec.hmacKey Spec.Sha256.sha256 [1, 2] = Spec.hmacKey Spec.Sha256.sha256 [1, 2, 0] := by decide

/-- With them, and one message in two ways of cutting it, the hypotheses of both theorems are met. -/
example {p : Program} (hp : IsProgram Files.lib sources p) (T : Target) (m n : List U8) (hm : m.length ≤ 1000) (hn : n.length ≤ 1000) :
    ∃ us us' v,
      sessionIn p T 0 8 (.hmac_HMac_new, [bytes [1, 2]]) ([m, n].map (fun c => (.hmac_HMac_update, [bytes c])) ++ [(.hmac_HMac_digest, [])]) =
        .ok (us ++ [v]) ∧
      sessionIn p T 0 8 (.hmac_HMac_new, [bytes [1, 2, 0]]) ([m ++ n].map (fun c => (.hmac_HMac_update, [bytes c])) ++ [(.hmac_HMac_digest, [])]) =
        .ok (us' ++ [v]) ∧
      ((Spec.hmacKey Spec.Sha256.sha256 [1, 2] = Spec.hmacKey Spec.Sha256.sha256 [1, 2, 0] ∧ [m, n].flatten = [m ++ n].flatten) ∨
        CollisionIn (innerText [1, 2] [m, n].flatten) (innerText [1, 2, 0] [m ++ n].flatten) ∨
        CollisionIn (outerText [1, 2] [m, n].flatten) (outerText [1, 2, 0] [m ++ n].flatten)) ∧
      ((∃ k, ([1, 2, 0] : List U8) = [1, 2] ++ List.replicate k 0) ∨ ∃ k, ([1, 2] : List U8) = [1, 2, 0] ++ List.replicate k 0) := by
  have hb := T.two_pow_ge
  have hk : Spec.hmacKey Spec.Sha256.sha256 [1, 2] = Spec.hmacKey Spec.Sha256.sha256 [1, 2, 0] := by decide
  have l1 : 8 * (64 + [m, n].flatten.length) < 2 ^ T.bits := by simp; omega
  have l2 : 8 * (64 + [m ++ n].flatten.length) < 2 ^ T.bits := by simp; omega
  have h1 := C86_hmac hp T 0 8 (Nat.le_refl 8) [1, 2] [m, n] (by simp; omega) l1
  have h2 := C86_hmac hp T 0 8 (Nat.le_refl 8) [1, 2, 0] [m ++ n] (by simp; omega) l2
  have e : Spec.hmac Spec.Sha256.sha256 [1, 2, 0] [m ++ n].flatten = Spec.hmac Spec.Sha256.sha256 [1, 2] [m, n].flatten := by
    rw [Spec.hmac, Spec.hmac, hk]
    simp
  rw [e] at h2
  exact ⟨_, _, _, h1, h2, C90_collision hp T 0 8 (Nat.le_refl 8) [1, 2] [1, 2, 0] [m, n] [m ++ n] _ _ _ (by simp; omega) l1 (by simp; omega) l2 h1 h2,
    (C90_keys [1, 2] [1, 2, 0] hk).1 (by decide) (by decide)⟩

end Verif.Props.HmacCollision
