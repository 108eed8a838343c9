import Verif.Props.Locked
import Verif.Props.HmacCollision

/-!
Property C103: what is derived from a password, and a box that is sealed with it, belongs to one password only. (If one box could be made that
opens under many passwords, someone who tells whether a box opens could be asked about many passwords at once.)
-/

namespace Verif.Props.Commit
open Verif Verif.Source Verif.Text Verif.Props.Source Verif.Props.FromText Verif.Props.Sealed Verif.Props.Locked Verif.Props.HmacCollision
open Spec.SealGames Spec.Sha256
open Spec.Games (Block)
open Spec.ScryptGames (Params)

/-! ### Statements -/

/-- Octets number `32 * i` to `32 * i + 31`. -/
def part (dk : List U8) (i : Nat) : List U8 := (dk.drop (32 * i)).take 32

/-- The computations of two digests by HMAC contain a collision of the compression function of SHA-256. -/
def Collide (key m key' m' : List U8) : Prop :=
  CollisionIn (innerText key m) (innerText key' m') ∨ CollisionIn (outerText key m) (outerText key' m')

/-- The two passwords are the same 64 octets for HMAC: see `C90_keys`. -/
def Same (password password' : List U8) : Prop := Spec.hmacKey sha256 password = Spec.hmacKey sha256 password'

/-- The salt of the second use of PBKDF2 in scrypt: RFC 7914, section 6, steps 1 and 2. -/
def inside (P : Params) (password salt : List U8) : List U8 := P.mix (Spec.Pbkdf2.pbkdf2HmacSha256 password salt 1 P.size)

/-! ### Derived octets -/

theorem part_flatMap (f : Nat → List U8) (hf : ∀ i, (f i).length = 32) (l i : Nat) (hi : i < l) : part ((List.range l).flatMap f) i = f i := by
  have e : List.range l = List.range i ++ (i :: List.range' (i + 1) (l - (i + 1))) := by
    rw [List.range_eq_range', List.range_eq_range', ← List.range'_succ, show l - (i + 1) + 1 = l - i by omega]
    have := @List.range'_append_1 0 i (l - i)
    rw [Nat.zero_add] at this
    rw [this]
    congr 1
    omega
  have hl : ((List.range i).flatMap f).length = 32 * i := by
    rw [List.length_flatMap]
    simp only [hf, List.map_const', List.sum_replicate, List.length_range, smul_eq_mul]
    omega
  rw [part, e, List.flatMap_append, List.drop_left' hl, List.flatMap_cons, List.take_left' (hf i)]

theorem part_take (s : List U8) (n i : Nat) (h : 32 * (i + 1) ≤ n) : part (s.take n) i = part s i := by
  rw [part, part, List.drop_take, List.take_take, Nat.min_eq_left (by omega)]

theorem pbkdf2_part (password salt : List U8) (len i : Nat) (h : 32 * (i + 1) ≤ len) :
    part (Spec.Pbkdf2.pbkdf2HmacSha256 password salt 1 len) i = Spec.hmac sha256 password (salt ++ Spec.beBytes 4 (i + 1)) := by
  rw [Spec.Pbkdf2.pbkdf2HmacSha256, Spec.Pbkdf2.pbkdf2, part_take _ _ _ h, Spec.Pbkdf2.stream, part_flatMap _ _ _ _ (by omega)]
  · rfl
  · exact fun _ => F_length _ _ _ _

theorem parts_equal (password salt password' salt' : List U8) (len len' i j : Nat) (hi : 32 * (i + 1) ≤ len) (hj : 32 * (j + 1) ≤ len')
    (hl : len ≤ (2 ^ 32 - 1) * 32) (hl' : len' ≤ (2 ^ 32 - 1) * 32) (hs : 8 * (64 + salt.length + 4) < 2 ^ 64)
    (hs' : 8 * (64 + salt'.length + 4) < 2 ^ 64)
    (h : part (Spec.Pbkdf2.pbkdf2HmacSha256 password salt 1 len) i = part (Spec.Pbkdf2.pbkdf2HmacSha256 password' salt' 1 len') j) :
    (Same password password' ∧ salt = salt' ∧ i = j) ∨
      Collide password (salt ++ Spec.beBytes 4 (i + 1)) password' (salt' ++ Spec.beBytes 4 (j + 1)) := by
  rw [pbkdf2_part _ _ _ _ hi, pbkdf2_part _ _ _ _ hj] at h
  rcases hmac_collision _ _ _ _ (by rw [List.length_append, Spec.KeyGames.beBytes_length]; omega)
    (by rw [List.length_append, Spec.KeyGames.beBytes_length]; omega) h with ⟨h1, h2⟩ | h
  · obtain ⟨h3, h4⟩ := List.append_inj' h2 (by rw [Spec.KeyGames.beBytes_length, Spec.KeyGames.beBytes_length])
    have := Spec.KeyGames.beBytes4_inj (by omega) (by omega) h4
    exact .inl ⟨h1, h3, by omega⟩
  · exact .inr h

theorem bits_le (T : Target) : 2 ^ T.bits ≤ 2 ^ 64 :=
  Nat.pow_le_pow_right (by decide) (by rcases T.bits_cases with e | e <;> omega)

section
variable {p : Program} (hp : IsProgram Files.lib sources p)
include hp

/-- **C103.** If two keys that the program in the text derives by `pbkdf2_sha256` with one iteration agree in 32 octets, part `i` of the one and
part `j` of the other, then it is the same password, up to the zeros of C46, with the same salt, and the same part; or the computations of these
32 octets contain a collision of the compression function. -/
theorem C103_pbkdf2 (T : Target) (fuel depth : Nat) (hd : 8 ≤ depth) (password salt password' salt' : List U8) (len len' i j : Nat)
    (hP : 8 * password.length < 2 ^ T.bits) (hP' : 8 * password'.length < 2 ^ T.bits)
    (ho : DerivedKeys.Possible T salt 1 len) (ho' : DerivedKeys.Possible T salt' 1 len')
    (hl : len ≤ (2 ^ 32 - 1) * 32) (hl' : len' ≤ (2 ^ 32 - 1) * 32) (hi : 32 * (i + 1) ≤ len) (hj : 32 * (j + 1) ≤ len')
    (h : part (DerivedKeys.kdf p T fuel depth password salt 1 len) i = part (DerivedKeys.kdf p T fuel depth password' salt' 1 len') j) :
    (Same password password' ∧ salt = salt' ∧ i = j) ∨
      Collide password (salt ++ Spec.beBytes 4 (i + 1)) password' (salt' ++ Spec.beBytes 4 (j + 1)) := by
  have := bits_le T
  rw [DerivedKeys.kdf_eq hp T fuel depth hd password salt hP 1 len ho le_rfl hl,
    DerivedKeys.kdf_eq hp T fuel depth hd password' salt' hP' 1 len' ho' le_rfl hl'] at h
  exact parts_equal _ _ _ _ _ _ _ _ hi hj hl hl' (by have := ho.1; omega) (by have := ho'.1; omega) h

/-- **C103.** The same for keys that a `Scrypt` derives, with any two sets of parameters: then the octets in the middle of the two computations are
the same, too. -/
theorem C103_scrypt (T : Target) (fuel depth : Nat) (hd : 8 ≤ depth) (P P' : Params) (hU : ScryptKeys.Usable T P) (hU' : ScryptKeys.Usable T P')
    (password salt password' salt' : List U8) (len len' i j : Nat)
    (hP : 8 * password.length < 2 ^ T.bits) (hP' : 8 * password'.length < 2 ^ T.bits)
    (ho : ScryptKeys.Possible T salt len) (ho' : ScryptKeys.Possible T salt' len')
    (hl : len ≤ (2 ^ 32 - 1) * 32) (hl' : len' ≤ (2 ^ 32 - 1) * 32) (hi : 32 * (i + 1) ≤ len) (hj : 32 * (j + 1) ≤ len')
    (h : part (ScryptKeys.kdf p T fuel depth P password salt len) i = part (ScryptKeys.kdf p T fuel depth P' password' salt' len') j) :
    (Same password password' ∧ inside P password salt = inside P' password' salt' ∧ i = j) ∨
      Collide password (inside P password salt ++ Spec.beBytes 4 (i + 1)) password' (inside P' password' salt' ++ Spec.beBytes 4 (j + 1)) := by
  have := bits_le T
  have pos (Q : Params) (hQ : ScryptKeys.Usable T Q) : 1 ≤ Q.N := by
    obtain ⟨k, hk⟩ := hQ.N
    rw [hk]
    exact Nat.one_le_two_pow
  rw [ScryptKeys.kdf_eq hp T fuel depth hd P hU password salt hP len ho, ScryptKeys.kdf_eq hp T fuel depth hd P' hU' password' salt' hP' len' ho'] at h
  refine parts_equal password (inside P password salt) password' (inside P' password' salt') len len' i j hi hj hl hl' ?_ ?_ h
  · rw [inside, ScryptKeys.mix_length P (pos P hU)]
    have := hU.hash
    omega
  · rw [inside, ScryptKeys.mix_length P' (pos P' hU')]
    have := hU'.hash
    omega

/-! ### Boxes -/

/-- **C103.** A box that is not refused with two keys of 32 octets for the `HMac`: the keys are equal, or the computations of the two tags contain
a collision. -/
theorem C103_tag (T : Target) (fuel depth : Nat) (hd : 8 ≤ depth) (k k' : List U8) (hk : k.length = 32) (hk' : k'.length = 32)
    (dec dec' : Block → List U8 → Option (List U8)) (iv : Block) (c t : List U8) (hc : Checkable T c)
    (h : reply (tag p T fuel depth k) dec iv c t ≠ .refused) (h' : reply (tag p T fuel depth k') dec' iv c t ≠ .refused) :
    k = k' ∨ Collide k (iv.toList ++ c) k' (iv.toList ++ c) := by
  have hb := bits_le T
  have hT := T.two_pow_ge
  have e (k : List U8) (hk : k.length = 32) (dec : Block → List U8 → Option (List U8))
      (h : reply (tag p T fuel depth k) dec iv c t ≠ .refused) : Spec.hmac sha256 k (iv.toList ++ c) = t := by
    have h : tag p T fuel depth k iv c = t := by
      by_contra hne
      exact h (by rw [reply, if_neg hne])
    rw [tag, Forgery.mac_eq hp T fuel depth hd k (by omega) _ (by
      unfold Checkable at hc
      simp only [Forgery.Possible, List.flatten_cons, List.flatten_nil, List.append_nil, List.length_append, List.Vector.toList_length]
      omega), DerivedKeys.hmac_toList] at h
    simpa [Spec.hmacSha256] using h
  have e1 := (e k hk dec h).trans (e k' hk' dec' h').symm
  have hl : 8 * (64 + (iv.toList ++ c).length) < 2 ^ 64 := by
    unfold Checkable at hc
    rw [List.length_append, List.Vector.toList_length]
    omega
  rcases hmac_collision _ _ _ _ hl hl e1 with ⟨h1, -⟩ | h
  · refine .inl ?_
    rw [Spec.hmacKey, Spec.hmacKey, if_neg (by omega), if_neg (by omega)] at h1
    exact (List.append_inj h1 (by omega)).1
  · exact .inr h

/-- **C103.** A box belongs to one password: if it is not refused with the keys that a `Scrypt` derives from one password, 32 octets for the `Cipher`
and 32 for the `HMac`, nor with those derived from another password, with any salts and parameters, then the two are the same password for HMAC, or
the computations of the tags contain a collision, or those of the keys. -/
theorem C103_box_scrypt (T : Target) (fuel depth : Nat) (hd : 8 ≤ depth) (P P' : Params) (hU : ScryptKeys.Usable T P) (hU' : ScryptKeys.Usable T P')
    (password salt password' salt' : List U8) (hP : 8 * password.length < 2 ^ T.bits) (hP' : 8 * password'.length < 2 ^ T.bits)
    (hs : 8 * (64 + salt.length + 4) < 2 ^ T.bits) (hs' : 8 * (64 + salt'.length + 4) < 2 ^ T.bits)
    (dk dk' : List U8) (hdk : dk = ScryptKeys.kdf p T fuel depth P password salt 64) (hdk' : dk' = ScryptKeys.kdf p T fuel depth P' password' salt' 64)
    (iv : Block) (c t : List U8) (hc : Checkable T c)
    (h : reply (tag p T fuel depth (macKey 32 dk)) (decrypted p T fuel depth (cipherKey 32 dk)) iv c t ≠ .refused)
    (h' : reply (tag p T fuel depth (macKey 32 dk')) (decrypted p T fuel depth (cipherKey 32 dk')) iv c t ≠ .refused) :
    Same password password' ∨ Collide (macKey 32 dk) (iv.toList ++ c) (macKey 32 dk') (iv.toList ++ c) ∨
      Collide password (inside P password salt ++ Spec.beBytes 4 2) password' (inside P' password' salt' ++ Spec.beBytes 4 2) := by
  have hT := T.two_pow_ge
  have hb := bits_isize T
  have l : dk.length = 64 := by rw [hdk]; exact scrypt_kdf_length hp T fuel depth hd P hU password salt hP 64 ⟨hs, by omega⟩
  have l' : dk'.length = 64 := by rw [hdk']; exact scrypt_kdf_length hp T fuel depth hd P' hU' password' salt' hP' 64 ⟨hs', by omega⟩
  have m (d : List U8) (hd : d.length = 64) : (macKey 32 d).length = 32 := by rw [macKey, List.length_drop, hd]
  have e (d : List U8) (hd : d.length = 64) : part d 1 = macKey 32 d := by
    rw [part, macKey, Nat.mul_one, List.take_of_length_le (by rw [List.length_drop, hd])]
  rcases C103_tag hp T fuel depth hd _ _ (m dk l) (m dk' l') _ _ iv c t hc h h' with hk | hk
  · rw [← e dk l, ← e dk' l', hdk, hdk'] at hk
    rcases C103_scrypt hp T fuel depth hd P P' hU hU' password salt password' salt' 64 64 1 1 hP hP' ⟨hs, by omega⟩ ⟨hs', by omega⟩ (by decide)
      (by decide) (by decide) (by decide) hk with h | h
    · exact .inl h.1
    · exact .inr (.inr h)
  · exact .inr (.inl hk)

/-- **C103.** The same for keys derived by `pbkdf2_sha256` with one iteration; then it is the same salt, too. -/
theorem C103_box_pbkdf2 (T : Target) (fuel depth : Nat) (hd : 8 ≤ depth)
    (password salt password' salt' : List U8) (hP : 8 * password.length < 2 ^ T.bits) (hP' : 8 * password'.length < 2 ^ T.bits)
    (hs : 8 * (64 + salt.length + 4) < 2 ^ T.bits) (hs' : 8 * (64 + salt'.length + 4) < 2 ^ T.bits)
    (dk dk' : List U8) (hdk : dk = DerivedKeys.kdf p T fuel depth password salt 1 64) (hdk' : dk' = DerivedKeys.kdf p T fuel depth password' salt' 1 64)
    (iv : Block) (c t : List U8) (hc : Checkable T c)
    (h : reply (tag p T fuel depth (macKey 32 dk)) (decrypted p T fuel depth (cipherKey 32 dk)) iv c t ≠ .refused)
    (h' : reply (tag p T fuel depth (macKey 32 dk')) (decrypted p T fuel depth (cipherKey 32 dk')) iv c t ≠ .refused) :
    (Same password password' ∧ salt = salt') ∨ Collide (macKey 32 dk) (iv.toList ++ c) (macKey 32 dk') (iv.toList ++ c) ∨
      Collide password (salt ++ Spec.beBytes 4 2) password' (salt' ++ Spec.beBytes 4 2) := by
  have hT := T.two_pow_ge
  have hb := bits_isize T
  have l : dk.length = 64 := by rw [hdk]; exact kdf_length hp T fuel depth hd password salt hP 1 64 ⟨hs, by omega⟩ le_rfl (by decide)
  have l' : dk'.length = 64 := by rw [hdk']; exact kdf_length hp T fuel depth hd password' salt' hP' 1 64 ⟨hs', by omega⟩ le_rfl (by decide)
  have m (d : List U8) (hd : d.length = 64) : (macKey 32 d).length = 32 := by rw [macKey, List.length_drop, hd]
  have e (d : List U8) (hd : d.length = 64) : part d 1 = macKey 32 d := by
    rw [part, macKey, Nat.mul_one, List.take_of_length_le (by rw [List.length_drop, hd])]
  rcases C103_tag hp T fuel depth hd _ _ (m dk l) (m dk' l') _ _ iv c t hc h h' with hk | hk
  · rw [← e dk l, ← e dk' l', hdk, hdk'] at hk
    rcases C103_pbkdf2 hp T fuel depth hd password salt password' salt' 64 64 1 1 hP hP' ⟨hs, by omega⟩ ⟨hs', by omega⟩ (by decide) (by decide)
      (by decide) (by decide) hk with h | h
    · exact .inl ⟨h.1, h.2.1⟩
    · exact .inr (.inr h)
  · exact .inr (.inl hk)

end

/-! ### A case -/

theorem pbkdf2_same {password password' : List U8} (h : Same password password') :
    Spec.Pbkdf2.pbkdf2HmacSha256 password = Spec.Pbkdf2.pbkdf2HmacSha256 password' := by
  have hm (m : List U8) : Spec.hmacSha256 password m = Spec.hmacSha256 password' m := by
    rw [Same] at h
    simp only [Spec.hmacSha256, Spec.hmac, h]
  have hU (salt : List U8) (i j : Nat) : Spec.Pbkdf2.U Spec.hmacSha256 password salt i j = Spec.Pbkdf2.U Spec.hmacSha256 password' salt i j := by
    induction j with
    | zero => exact hm _
    | succ j ih => rw [Spec.Pbkdf2.U, Spec.Pbkdf2.U, ih, hm]
  funext salt c len
  simp only [Spec.Pbkdf2.pbkdf2HmacSha256, Spec.Pbkdf2.pbkdf2, Spec.Pbkdf2.stream, Spec.Pbkdf2.F, hU]

/-- Parameters in use. -/
def usual : Params := ⟨8, 1024, 1⟩

theorem usual_usable (T : Target) : ScryptKeys.Usable T usual := by
  rcases T with ⟨_ | _, _ | _⟩ <;>
    exact ⟨by decide, ⟨10, rfl⟩, by decide, by decide, by decide, by decide, by decide⟩

/-- These passwords are the same for HMAC, and give the same key. -/
theorem same_keys (T : Target) : ScryptKeys.kdf crate T 65 8 usual [1, 2, 0] [] 64 = ScryptKeys.kdf crate T 65 8 usual [1, 2] [] 64 := by
  have hT := T.two_pow_ge
  have hb := bits_isize T
  have ho : ScryptKeys.Possible T [] 64 := ⟨by simp only [List.length_nil]; omega, by omega⟩
  rw [ScryptKeys.kdf_eq C86_text.1 T 65 8 le_rfl usual (usual_usable T) _ _ (by simp only [List.length_cons, List.length_nil]; omega) 64 ho,
    ScryptKeys.kdf_eq C86_text.1 T 65 8 le_rfl usual (usual_usable T) _ _ (by simp only [List.length_cons, List.length_nil]; omega) 64 ho]
  have h : Same [1, 2, 0] [1, 2] := by unfold Same; decide
  simp only [Spec.Scrypt.scrypt, Spec.Scrypt.scryptWith, pbkdf2_same h]

/-- So the hypotheses of `C103_scrypt` are met. -/
example (T : Target) :=
  have hT := T.two_pow_ge
  have hb := bits_isize T
  have ho : ScryptKeys.Possible T [] 64 := ⟨by simp only [List.length_nil]; omega, by omega⟩
  C103_scrypt C86_text.1 T 65 8 le_rfl usual usual (usual_usable T) (usual_usable T) [1, 2, 0] [] [1, 2] [] 64 64 1 1
    (by simp only [List.length_cons, List.length_nil]; omega) (by simp only [List.length_cons, List.length_nil]; omega) ho ho (by decide) (by decide)
    (by decide) (by decide) (congrArg (part · 1) (same_keys T))

/-- A box that two different passwords open. -/
theorem both_open (T : Target) (iv : Block) (m : List U8) (hm : Sealable T m) :
    let dk := ScryptKeys.kdf crate T 65 8 usual [1, 2] []
    let dk' := ScryptKeys.kdf crate T 65 8 usual [1, 2, 0] []
    let c := encrypted crate T 65 8 (cipherKey 32 (dk 64)) iv m
    let t := tag crate T 65 8 (macKey 32 (dk 64)) iv c
    reply (tag crate T 65 8 (macKey 32 (dk 64))) (decrypted crate T 65 8 (cipherKey 32 (dk 64))) iv c t = .message m ∧
    reply (tag crate T 65 8 (macKey 32 (dk' 64))) (decrypted crate T 65 8 (cipherKey 32 (dk' 64))) iv c t = .message m := by
  have hT := T.two_pow_ge
  have hb := bits_isize T
  have h := C100_opens C86_text.1 T 65 8 le_rfl le_rfl 32 (.inr (.inr rfl)) [1, 2] [] (by simp only [List.length_cons, List.length_nil]; omega)
    (by simp only [List.length_nil]; omega) iv m hm _ (.inr ⟨usual, usual_usable T, rfl⟩)
  dsimp only
  rw [same_keys]
  exact ⟨h, h⟩

/-- `C103_box_scrypt` and `C103_tag` apply to it. -/
example (T : Target) (iv : Block) (m : List U8) (hm : m.length = 20) :=
  have hT := T.two_pow_ge
  have hb := bits_isize T
  have hS : Sealable T m := by unfold Sealable; omega
  have ho : ScryptKeys.Possible T [] 64 := ⟨by simp only [List.length_nil]; omega, by omega⟩
  have hl : (ScryptKeys.kdf crate T 65 8 usual [1, 2] [] 64).length = 64 := Verif.Props.Locked.scrypt_kdf_length C86_text.1 T 65 8 le_rfl usual
    (usual_usable T) [1, 2] [] (by simp only [List.length_cons, List.length_nil]; omega) 64 ho
  have hc : Checkable T (encrypted crate T 65 8 (cipherKey 32 (ScryptKeys.kdf crate T 65 8 usual [1, 2] [] 64)) iv m) := by
    unfold Checkable
    rw [encrypted_length C86_text.1 T 65 8 le_rfl le_rfl _ (.inr (.inr (by rw [cipherKey, List.length_take, hl]; rfl))) iv m hS]
    omega
  C103_box_scrypt C86_text.1 T 65 8 le_rfl usual usual (usual_usable T) (usual_usable T) [1, 2] [] [1, 2, 0] []
    (by simp only [List.length_cons, List.length_nil]; omega) (by simp only [List.length_cons, List.length_nil]; omega)
    (by simp only [List.length_nil]; omega) (by simp only [List.length_nil]; omega) _ _ rfl rfl iv _ _ hc
    (by rw [(both_open T iv m hS).1]; simp) (by rw [(both_open T iv m hS).2]; simp)

/-- The same with PBKDF2, for `C103_pbkdf2`, `C103_tag` and `C103_box_pbkdf2`: the passwords `1, 2, 0` and `1, 2` open the same boxes. -/
theorem same_pbkdf2_keys (T : Target) : DerivedKeys.kdf crate T 65 8 [1, 2, 0] [7] 1 64 = DerivedKeys.kdf crate T 65 8 [1, 2] [7] 1 64 := by
  have hT := T.two_pow_ge
  have hb := bits_isize T
  have ho : DerivedKeys.Possible T [7] 1 64 := ⟨by simp only [List.length_cons, List.length_nil]; omega, by omega⟩
  rw [DerivedKeys.kdf_eq C86_text.1 T 65 8 le_rfl _ _ (by simp only [List.length_cons, List.length_nil]; omega) 1 64 ho le_rfl (by decide),
    DerivedKeys.kdf_eq C86_text.1 T 65 8 le_rfl _ _ (by simp only [List.length_cons, List.length_nil]; omega) 1 64 ho le_rfl (by decide)]
  have h : Same [1, 2, 0] [1, 2] := by unfold Same; decide
  rw [pbkdf2_same h]

example (T : Target) (iv : Block) (m : List U8) (hm : m.length = 20) :=
  have hT := T.two_pow_ge
  have hb := bits_isize T
  have hS : Sealable T m := by unfold Sealable; omega
  have h1 : 8 * ([1, 2, 0] : List U8).length < 2 ^ T.bits := by simp only [List.length_cons, List.length_nil]; omega
  have h2 : 8 * ([1, 2] : List U8).length < 2 ^ T.bits := by simp only [List.length_cons, List.length_nil]; omega
  have h3 : 8 * (64 + ([7] : List U8).length + 4) < 2 ^ T.bits := by simp only [List.length_cons, List.length_nil]; omega
  have ho : DerivedKeys.Possible T [7] 1 64 := ⟨h3, by omega⟩
  have hl := kdf_length C86_text.1 T 65 8 le_rfl [1, 2] [7] h2 1 64 ho le_rfl (by decide)
  have hl' : (macKey 32 (DerivedKeys.kdf crate T 65 8 [1, 2] [7] 1 64)).length = 32 := by rw [macKey, List.length_drop, hl]
  have hc : Checkable T (encrypted crate T 65 8 (cipherKey 32 (DerivedKeys.kdf crate T 65 8 [1, 2] [7] 1 64)) iv m) := by
    unfold Checkable
    rw [encrypted_length C86_text.1 T 65 8 le_rfl le_rfl _ (.inr (.inr (by rw [cipherKey, List.length_take, hl]; rfl))) iv m hS]
    omega
  have h := C100_opens C86_text.1 T 65 8 le_rfl le_rfl 32 (.inr (.inr rfl)) [1, 2] [7] h2 h3 iv m hS _ (.inl ⟨1, le_rfl, rfl⟩)
  And.intro (C103_pbkdf2 C86_text.1 T 65 8 le_rfl [1, 2, 0] [7] [1, 2] [7] 64 64 1 1 h1 h2 ho ho (by decide) (by decide) (by decide) (by decide)
      (congrArg (part · 1) (same_pbkdf2_keys T)))
    (And.intro (C103_tag C86_text.1 T 65 8 le_rfl _ _ hl' hl' _ _ iv _ _ hc (by rw [h]; simp) (by rw [h]; simp))
      (C103_box_pbkdf2 C86_text.1 T 65 8 le_rfl [1, 2] [7] [1, 2, 0] [7] h2 h1 h3 h3 _ _ rfl (same_pbkdf2_keys T).symm iv _ _ hc
        (by rw [h]; simp) (by rw [h]; simp)))

end Verif.Props.Commit
