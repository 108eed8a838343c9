import Verif.Props.Hmac
import Verif.Props.HmacCollision
import Verif.Props.Multicollision
import Verif.Spec.HmacInside

/-! Property C117: two messages with one hash value inside of an `HMac` give forgeries. -/

namespace Verif.Props.HmacExtend
open Verif Spec.Sha256 Verif.Props.Hmac Verif.Props.Multicollision

theorem hashAll_append (h : State) (a b : List U8) (m : Nat) (ha : a.length = 64 * m) :
    hashAll h (a ++ b) = hashAll (hashAll h a) b := by
  rw [Verif.Sha256.hashAll_split _ _ _ m ha]
  conv => rhs; rw [hashAll.eq_def h a, ha, Nat.mul_div_cancel_left _ (by decide)]

theorem keyBlock_length (key : List U8) (c : U8) : ((Spec.hmacKey sha256 key).map (· ^^^ c)).length = 64 := by
  rw [List.length_map]
  exact Verif.Props.HmacCollision.hmacKey_length key

/-- The inner hash of a message that begins with whole blocks. -/
theorem inner_eq (key m x : List U8) (n : Nat) (hm : m.length = 64 * n) :
    sha256 ((Spec.hmacKey sha256 key).map (· ^^^ 0x36) ++ (m ++ x)) =
      output (hashAll (inside key m) (x ++ padding (64 + m.length + x.length) (8 * (64 + m.length + x.length)))) := by
  have hk := keyBlock_length key 0x36
  have hl : ((Spec.hmacKey sha256 key).map (· ^^^ 0x36) ++ (m ++ x)).length = 64 + m.length + x.length := by
    rw [List.length_append, List.length_append, hk]; omega
  rw [sha256, sha256WithLength, hl]
  rw [← List.append_assoc, List.append_assoc, hashAll_append _ _ _ (n + 1) (by rw [List.length_append, hk, hm]; omega)]
  rfl

/-- The outer hash. -/
theorem outer_eq (key d : List U8) : sha256 ((Spec.hmacKey sha256 key).map (· ^^^ 0x5c) ++ d) =
    output (hashAll (outside key) (d ++ padding (64 + d.length) (8 * (64 + d.length)))) := by
  have hk := keyBlock_length key 0x5c
  rw [sha256, sha256WithLength, List.length_append, hk, List.append_assoc, hashAll_append _ _ _ 1 (by rw [hk])]
  rfl

theorem hmac_append (key m m' x : List U8) (n : Nat) (hm : m.length = 64 * n) (hm' : m'.length = 64 * n)
    (h : inside key m = inside key m') : Spec.hmacSha256 key (m ++ x) = Spec.hmacSha256 key (m' ++ x) := by
  simp only [Spec.hmacSha256, Spec.hmac]
  rw [inner_eq key m x n hm, inner_eq key m' x n hm', h, hm, hm']

/-- **C117.** When two messages of the same number of whole blocks lead to one hash value inside of an `HMac`, then the digest of the
one with any continuation is the digest of the other with this continuation, whatever the key is and however they are cut into
pieces. -/
theorem C117_continues (T : Target) (key m m' x : List U8) (n : Nat) (hm : m.length = 64 * n) (hm' : m'.length = 64 * n)
    (h : inside key m = inside key m') (hk : 8 * key.length < 2 ^ T.bits) (hl : 8 * (64 + 64 * n + x.length) < 2 ^ T.bits)
    (chunks chunks' : List (List U8)) (hc : chunks.flatten = m ++ x) (hc' : chunks'.flatten = m' ++ x) :
    ∃ digest, macChunks T key chunks = .ok digest ∧ macChunks T key chunks' = .ok digest := by
  refine ⟨_, C06_hmac_correct T key chunks hk ?_, ?_⟩
  · rw [hc, List.length_append, hm]; omega
  · rw [C06_hmac_correct T key chunks' hk (by rw [hc', List.length_append, hm']; omega), hc, hc', hmac_append key m m' x n hm hm' h]

theorem block_of (b : List U8) (hb : b.length = 64) : ∃ v : Block, v.toList = b :=
  ⟨⟨b.toArray, by simpa using hb⟩, by simp [Vector.toList]⟩

theorem digest_padding (n : Nat) (hn : n % 64 = 0) (l : Nat) : (padding n l).length = 64 := by
  simp only [padding, zeroBytes, Spec.beBytes, List.length_append, List.length_cons, List.length_replicate, List.length_map,
    List.length_range]
  omega

theorem hashAll_next (h : State) (b : Block) : hashAll h b.toList = next h b := Verif.Props.Multicollision.hashAll_block h b

theorem sha256_length (m : List U8) : (sha256 m).length = 32 := by
  simp [sha256, sha256WithLength, output, Spec.beBytes]

/-- **C117.** Whoever finds two messages of the same number of whole blocks with one digest, just by asking for digests, has found
such a pair, unless the collision is one of the compression function on a single block: either on the padding of the message, with
two hash values that differ, or on the digest of the inner hash and its padding. -/
theorem C117_collision (T : Target) (key m m' digest : List U8) (n : Nat) (hm : m.length = 64 * n) (hm' : m'.length = 64 * n)
    (hk : 8 * key.length < 2 ^ T.bits) (hl : 8 * (64 + 64 * n) < 2 ^ T.bits) (h : macChunks T key [m] = .ok digest)
    (h' : macChunks T key [m'] = .ok digest) :
    inside key m = inside key m' ∨
    (inside key m ≠ inside key m' ∧ ∃ b : Block, next (inside key m) b = next (inside key m') b) ∨
    ∃ b b' : Block, b ≠ b' ∧ next (outside key) b = next (outside key) b' := by
  rw [C06_hmac_correct T key [m] hk (by simp [hm]; exact hl)] at h
  rw [C06_hmac_correct T key [m'] hk (by simp [hm']; exact hl)] at h'
  simp only [List.flatten_cons, List.flatten_nil, List.append_nil] at h h'
  have e : Spec.hmacSha256 key m = Spec.hmacSha256 key m' := (Except.ok.inj h).trans (Except.ok.inj h').symm
  simp only [Spec.hmacSha256, Spec.hmac] at e
  have i1 := inner_eq key m [] n hm
  have i2 := inner_eq key m' [] n hm'
  rw [List.append_nil] at i1 i2
  rw [hm] at i1
  rw [hm'] at i2
  simp only [List.nil_append, List.length_nil, Nat.add_zero] at i1 i2
  rw [outer_eq, outer_eq, sha256_length, sha256_length] at e
  have e := Verif.Props.Sha256.output_inj _ _ e
  have hp : (padding (64 + 32) (8 * (64 + 32))).length = 32 := by decide
  obtain ⟨b, hb⟩ := block_of (sha256 ((Spec.hmacKey sha256 key).map (· ^^^ 0x36) ++ m) ++ padding (64 + 32) (8 * (64 + 32))) (by
    rw [List.length_append, sha256_length, hp])
  obtain ⟨b', hb'⟩ := block_of (sha256 ((Spec.hmacKey sha256 key).map (· ^^^ 0x36) ++ m') ++ padding (64 + 32) (8 * (64 + 32))) (by
    rw [List.length_append, sha256_length, hp])
  rw [← hb, ← hb', hashAll_next, hashAll_next] at e
  by_cases hbb : b = b'
  · rw [hbb, hb'] at hb
    have hd := (List.append_cancel_right hb).symm
    rw [i1, i2] at hd
    have hd := Verif.Props.Sha256.output_inj _ _ hd
    obtain ⟨c, hc⟩ := block_of _ (digest_padding (64 + 64 * n) (by omega) (8 * (64 + 64 * n)))
    rw [← hc, hashAll_next, hashAll_next] at hd
    by_cases hi : inside key m = inside key m'
    · exact .inl hi
    · exact .inr (.inl ⟨hi, c, hd⟩)
  · exact .inr (.inr ⟨b, b', hbb, e⟩)

/-- Such pairs exist for every key, and they are met by the hypotheses of both theorems: two different blocks with one hash value
inside. -/
theorem pairs_exist (key : List U8) : ∃ m m' : List U8, m ≠ m' ∧ m.length = 64 * 1 ∧ m'.length = 64 * 1 ∧ inside key m = inside key m' := by
  obtain ⟨search, hs⟩ := searches_exist
  have hk := keyBlock_length key 0x36
  have h := hs (hashAll initial ((Spec.hmacKey sha256 key).map (· ^^^ 0x36)))
  refine ⟨_, _, fun e => h.1 (Vector.toList_inj.mp e), by simp, by simp, ?_⟩
  rw [inside, inside, hashAll_append _ _ _ 1 (by rw [hk]), hashAll_append _ _ _ 1 (by rw [hk]), hashAll_next, hashAll_next]
  exact h.2

/-- The digest of the one block with a continuation is the digest of the other one with it; and for these blocks alone, the
hypotheses of `C117_collision` are met. -/
example (T : Target) (key : List U8) (hk : key.length ≤ 64) : ∃ m m' digest more : List U8, m ≠ m' ∧
    macChunks T key [m, [1, 2], [3]] = .ok more ∧ macChunks T key [m', [1, 2, 3]] = .ok more ∧
    macChunks T key [m] = .ok digest ∧ macChunks T key [m'] = .ok digest ∧ m.length = 64 * 1 ∧ m'.length = 64 * 1 := by
  have hb := T.two_pow_ge
  obtain ⟨m, m', hne, h1, h2, h3⟩ := pairs_exist key
  obtain ⟨d, hd, hd'⟩ := C117_continues T key m m' [] 1 h1 h2 h3 (by omega) (by simp; omega) [m] [m'] (by simp) (by simp)
  obtain ⟨d', hd1, hd2⟩ := C117_continues T key m m' [1, 2, 3] 1 h1 h2 h3 (by omega) (by simp; omega) [m, [1, 2], [3]] [m', [1, 2, 3]]
    (by simp) (by simp)
  exact ⟨m, m', d, d', hne, hd1, hd2, hd, hd', h1, h2⟩

end Verif.Props.HmacExtend
