import Verif.Proof.Basics
import Verif.Proof.Scrypt
import Verif.Model.AesCbc

/-! What a debug build computes without panicking, every build for the same or a wider `usize` computes. -/

namespace Verif
open Verif

/-- `m'` returns what `m` returns, when `m` returns. -/
def Le {α : Type} (m m' : M α) : Prop := ∀ y, m = .ok y → m' = .ok y

/-- `T` is a debug target and `T'` any target whose `usize` is at least as wide. -/
structure Target.Sub (T T' : Target) : Prop where
  checks : T.checks = true
  bits : T.bits ≤ T'.bits

namespace Le

theorem refl {α : Type} (m : M α) : Le m m := fun _ h => h

theorem bind {α β : Type} {m m' : M α} {f f' : α → M β} (hm : Le m m')
    (hf : ∀ a, m = .ok a → Le (f a) (f' a)) : Le (m >>= f) (m' >>= f') := by
  intro y hy
  cases h : m with
  | error e => rw [h] at hy; cases hy
  | ok a =>
    rw [h] at hy
    rw [hm a h]
    exact hf a h y hy

theorem bind' {α β : Type} {m m' : M α} {f f' : α → M β} (hm : Le m m')
    (hf : ∀ a, Le (f a) (f' a)) : Le (m >>= f) (m' >>= f') := hm.bind fun a _ => hf a

theorem forEach {α σ : Type} (xs : List α) {body body' : α → σ → M σ}
    (h : ∀ x s, Le (body x s) (body' x s)) (s : σ) : Le (forEach xs s body) (forEach xs s body') := by
  induction xs generalizing s with
  | nil => exact refl _
  | cons x xs ih =>
    rw [forEach_cons, forEach_cons]
    exact (h x s).bind' ih

theorem forRange {σ : Type} (lo hi : Nat) {body body' : Nat → σ → M σ}
    (h : ∀ x s, Le (body x s) (body' x s)) (s : σ) : Le (forRange lo hi s body) (forRange lo hi s body') :=
  forEach _ h s

theorem mapM {α β : Type} (xs : List α) {f f' : α → M β} (h : ∀ x ∈ xs, Le (f x) (f' x)) :
    Le (xs.mapM f) (xs.mapM f') := by
  induction xs with
  | nil => exact refl _
  | cons x xs ih =>
    rw [List.mapM_cons, List.mapM_cons]
    exact (h x (by simp)).bind' fun _ => (ih fun y hy => h y (by simp [hy])).bind' fun _ => refl _

end Le

namespace Target.Sub
variable {T T' : Target} (h : T.Sub T')
include h

theorem two_pow : 2 ^ T.bits ≤ 2 ^ T'.bits := Nat.pow_le_pow_right (by decide) h.bits

theorem add (a b : Nat) : Le (T.add a b) (T'.add a b) := by
  intro y hy
  have := h.two_pow
  unfold Target.add at hy ⊢
  rw [h.checks] at hy
  split at hy
  · rw [if_pos (by omega)]; exact hy
  · cases hy

theorem mul (a b : Nat) : Le (T.mul a b) (T'.mul a b) := by
  intro y hy
  have := h.two_pow
  unfold Target.mul at hy ⊢
  rw [h.checks] at hy
  split at hy
  · rw [if_pos (by omega)]; exact hy
  · cases hy

theorem sub (a b : Nat) : Le (T.sub a b) (T'.sub a b) := by
  intro y hy
  unfold Target.sub at hy ⊢
  rw [h.checks] at hy
  split at hy
  · rw [if_pos ‹_›]; exact hy
  · cases hy

omit h in
theorem rem (a b : Nat) : Le (T.rem a b) (T'.rem a b) := Le.refl _

theorem isizeMax : T.isizeMax ≤ T'.isizeMax := by
  have : 2 ^ (T.bits - 1) ≤ 2 ^ (T'.bits - 1) := Nat.pow_le_pow_right (by decide) (by have := h.bits; omega)
  unfold Target.isizeMax
  omega

theorem reserve (s n : Nat) : Le (T.reserve s n) (T'.reserve s n) := by
  intro y hy
  have := h.isizeMax
  unfold Target.reserve at hy ⊢
  split at hy
  · rw [if_pos (by omega)]
  · cases hy

/-- Pointers double when `usize` does, and the address space grows more. -/
theorem reserveVec (n : Nat) : Le (T.reserve T.vecSize n) (T'.reserve T'.vecSize n) := by
  intro y hy
  unfold Target.reserve at hy ⊢
  split at hy
  · rename_i hle
    have hb := h.bits
    have : n * T'.vecSize ≤ T'.isizeMax := by
      unfold Target.vecSize Target.isizeMax at *
      rcases T.bits_cases with h1 | h1 <;> rcases T'.bits_cases with h2 | h2 <;> rw [h1] at hle <;> rw [h2]
      · exact hle
      · omega
      · omega
      · exact hle
    rw [if_pos this]
  · cases hy

open Sha256 Hmac Pbkdf2 Scrypt Pkcs7 Aes AesCbc

theorem sha_update (s : SHA256) (data : List U8) : Le (s.update T data) (s.update T' data) := by
  unfold SHA256.update
  refine Le.bind' (Le.forEach _ (fun b st => ?_) _) fun _ => Le.refl _
  unfold SHA256.updateByte
  refine Le.bind' (Le.refl _) fun _ => Le.bind' (h.add _ _) fun _ => ?_
  exact Le.refl _

theorem sha_digest (s : SHA256) : Le (s.digest T) (s.digest T') := by
  unfold SHA256.digest
  refine Le.bind' (Le.refl _) fun _ => Le.bind' (Le.refl _) fun _ => Le.bind' (h.mul _ _) fun _ => Le.refl _

theorem hmac_newShort (key : List U8) : Le (HMac.newShort T key) (HMac.newShort T' key) := by
  unfold HMac.newShort
  refine Le.bind' (Le.refl _) fun _ => Le.bind' (h.sha_update _ _) fun _ =>
    Le.bind' (h.sha_update _ _) fun _ => Le.refl _

theorem hmac_new (key : List U8) : Le (HMac.new T key) (HMac.new T' key) := by
  unfold HMac.new
  split
  · exact Le.bind' (h.sha_update _ _) fun _ => Le.bind' (h.sha_digest _) fun _ => h.hmac_newShort _
  · exact h.hmac_newShort _

theorem hmac_update (m : HMac) (data : List U8) : Le (m.update T data) (m.update T' data) := by
  unfold HMac.update
  exact Le.bind' (h.sha_update _ _) fun _ => Le.refl _

theorem hmac_digest (m : HMac) : Le (m.digest T) (m.digest T') := by
  unfold HMac.digest
  exact Le.bind' (h.sha_digest _) fun _ => Le.bind' (h.sha_update _ _) fun _ =>
    Le.bind' (h.sha_digest _) fun _ => Le.refl _

theorem derive_block (P S : List U8) (c i : Nat) :
    Le (Pbkdf2.derive_block T P S c i) (Pbkdf2.derive_block T' P S c i) := by
  unfold Pbkdf2.derive_block
  refine Le.bind' (h.hmac_new _) fun _ => Le.bind' (h.hmac_update _ _) fun _ =>
    Le.bind' (h.hmac_update _ _) fun _ => Le.bind' (h.hmac_digest _) fun _ => ?_
  refine Le.bind' (Le.forRange _ _ (fun _ _ => ?_) _) fun _ => Le.refl _
  exact Le.bind' (h.hmac_new _) fun _ => Le.bind' (h.hmac_update _ _) fun _ =>
    Le.bind' (h.hmac_digest _) fun _ => Le.refl _

theorem pbkdf2 (P S : List U8) (c : Nat) (out : List U8) :
    Le (pbkdf2_sha256 T P S c out) (pbkdf2_sha256 T' P S c out) := by
  unfold pbkdf2_sha256
  refine Le.bind' (h.add _ _) fun _ => Le.bind' (h.sub _ _) fun _ => Le.forRange _ _ (fun i s => ?_) _
  refine Le.bind' (h.derive_block _ _ _ _) fun _ => Le.bind' (h.sub _ _) fun _ => Le.bind' (h.mul _ _) fun _ =>
    Le.bind' (h.mul _ _) fun _ => Le.bind' (h.sub _ _) fun _ => Le.refl _

theorem integerify (x : List Scrypt.Block) : Le (Scrypt.integerify T x) (Scrypt.integerify T' x) := by
  unfold Scrypt.integerify
  exact Le.bind' (h.sub _ _) fun _ => Le.bind' (Le.refl _) fun _ => Le.bind' (h.sub _ _) fun _ => Le.refl _

theorem block_mix (s : Scrypt) (b : List Scrypt.Block) : Le (s.block_mix T b) (s.block_mix T' b) := by
  unfold Scrypt.block_mix
  exact Le.bind' (h.mul _ _) fun _ => Le.bind' (h.sub _ _) fun _ => Le.bind' (Le.refl _) fun _ =>
    Le.bind' (h.mul _ _) fun _ => Le.bind' (h.reserveVec _) fun _ => Le.bind' (Le.refl _) fun _ =>
    Le.bind' (h.mul _ _) fun _ => Le.bind' (h.reserveVec _) fun _ => Le.bind' (h.reserveVec _) fun _ =>
    Le.refl _

theorem ro_mix (s : Scrypt) (hn : ∃ k, s.n = 2 ^ k) (b : List Scrypt.Block) :
    Le (s.ro_mix T b) (s.ro_mix T' b) := by
  unfold Scrypt.ro_mix
  refine Le.bind (h.reserveVec _) fun _ hres => ?_
  have hlt : s.n < 2 ^ T.bits := by
    unfold Target.reserve at hres
    split at hres
    · rename_i hle
      unfold Target.vecSize Target.isizeMax at hle
      rcases T.bits_cases with e | e <;> rw [e] at hle ⊢ <;> omega
    · cases hres
  obtain ⟨k, hk⟩ := hn
  have hk1 : k < T.bits := by
    rw [hk] at hlt
    exact (Nat.pow_lt_pow_iff_right (by decide)).mp hlt
  have hj : ∀ x : Nat, x % 2 ^ T.bits % s.n = x % 2 ^ T'.bits % s.n := by
    intro x
    have := h.bits
    rw [hk, Nat.mod_mod_of_dvd _ (Nat.pow_dvd_pow 2 (by omega)), Nat.mod_mod_of_dvd _ (Nat.pow_dvd_pow 2 (by omega))]
  refine Le.bind' (Le.forRange _ _ (fun _ _ => Le.bind' (h.block_mix _ _) fun _ => Le.refl _) _) fun _ => ?_
  refine Le.forRange _ _ (fun _ x => Le.bind' (h.integerify _) fun v => Le.bind' ?_ fun _ =>
    Le.bind' (Le.refl _) fun _ => h.block_mix _ _) _
  unfold Target.rem
  rw [hj]
  exact Le.refl _

theorem derive (s : Scrypt) (P S out : List U8) : Le (s.derive T P S out) (s.derive T' P S out) := by
  unfold Scrypt.derive
  split
  · exact Le.refl _
  · split
    · exact Le.refl _
    · refine Le.bind (h.sub _ _) fun n1 hn1 => ?_
      split
      · exact Le.refl _
      · rename_i hnot
        rename_i hn
        have hpow : ∃ k, s.n = 2 ^ k := by
          rw [T.sub_ok (by omega)] at hn1
          cases hn1
          exact (n_pow s.n (by omega)).mp (Decidable.not_not.mp hnot)
        split
        · exact Le.refl _
        · exact Le.bind' (h.mul _ _) fun _ => Le.bind' (h.mul _ _) fun _ => Le.bind' (h.mul _ _) fun _ =>
            Le.bind' (h.reserve _ _) fun _ => Le.bind' (h.pbkdf2 _ _ _ _) fun _ => Le.bind' (h.mul _ _) fun _ =>
            Le.bind' (Le.refl _) fun _ => Le.bind' (Le.refl _) fun _ =>
            Le.bind' (Le.mapM _ fun _ _ => h.ro_mix s hpow _) fun _ => Le.bind' (h.pbkdf2 _ _ _ _) fun _ => Le.refl _

theorem pad_write (p : Pad) (b : List U8) : Le (p.write T b) (p.write T' b) := by
  unfold Pad.write
  dsimp only
  split
  · exact Le.refl _
  · exact Le.bind' (rem _ _) fun _ => Le.bind' (h.sub _ _) fun _ => Le.refl _

theorem pad_flush (p : Pad) : Le (p.flush T) (p.flush T') := by
  unfold Pad.flush
  exact Le.bind' (h.sub _ _) fun _ => Le.refl _

theorem unpad_write (p : Unpad) (b : List U8) : Le (p.write T b) (p.write T' b) := by
  unfold Unpad.write
  dsimp only
  split
  · exact Le.refl _
  · exact Le.bind' (rem _ _) fun _ => Le.bind' (h.sub _ _) fun _ => Le.refl _

theorem unpad_flush (p : Unpad) : Le (p.flush T) (p.flush T') := by
  unfold Unpad.flush
  split
  · exact Le.refl _
  · refine Le.bind' (h.sub _ _) fun _ => Le.bind' (Le.refl _) fun _ => ?_
    split
    · exact Le.refl _
    · exact Le.bind' (h.sub _ _) fun _ => Le.refl _

theorem expand_key (key : List U8) (rc : Nat) : Le (Aes.expand_key T key rc) (Aes.expand_key T' key rc) := by
  unfold Aes.expand_key
  refine Le.bind' (Le.refl _) fun _ => Le.forRange _ _ (fun i w => ?_) _
  refine Le.bind' (h.sub _ _) fun _ => Le.bind' (Le.refl _) fun _ => Le.bind' (rem _ _) fun _ => Le.bind' ?_ fun _ =>
    Le.bind' (h.sub _ _) fun _ => Le.refl _
  split
  · exact Le.bind' (Le.refl _) fun _ => Le.bind' (h.sub _ _) fun _ => Le.refl _
  · exact Le.refl _

theorem aes_init (a : AES) (key : List U8) : Le (a.init T key) (a.init T' key) := by
  unfold AES.init
  dsimp only
  split
  · exact Le.bind' (h.expand_key _ _) fun _ => Le.refl _
  · exact Le.bind' (h.expand_key _ _) fun _ => Le.refl _
  · exact Le.bind' (h.expand_key _ _) fun _ => Le.refl _
  · exact Le.refl _

theorem cipher_init (c : Cipher) (key : List U8) : Le (c.init T key) (c.init T' key) := by
  unfold Cipher.init
  exact Le.bind' (h.aes_init _ _) fun _ => Le.refl _

theorem cipher_write (c : Cipher) (b : List U8) : Le (c.write T b) (c.write T' b) := by
  unfold Cipher.write
  exact Le.bind' (h.pad_write _ _) fun _ => Le.refl _

theorem cipher_flush (c : Cipher) : Le (c.flush T) (c.flush T') := by
  unfold Cipher.flush
  exact Le.bind' (h.pad_flush _) fun _ => Le.refl _

theorem decipher_init (c : Decipher) (key : List U8) : Le (c.init T key) (c.init T' key) := by
  unfold Decipher.init
  exact Le.bind' (h.aes_init _ _) fun _ => Le.refl _

theorem decipher_write (c : Decipher) (b : List U8) : Le (c.write T b) (c.write T' b) := by
  unfold Decipher.write
  refine Le.bind' (h.pad_write _ _) fun q => ?_
  obtain ⟨buffer, blocks⟩ := q
  cases blocks with
  | none => exact Le.refl _
  | some blocks =>
    refine Le.bind' (Le.refl _) fun _ => Le.bind' (Le.refl _) fun q => ?_
    obtain ⟨self, r⟩ := q
    cases r with
    | error e => exact Le.refl _
    | ok res => exact Le.bind' (h.unpad_write _ _) fun _ => Le.refl _

theorem decipher_flush (c : Decipher) : Le (c.flush T) (c.flush T') := by
  unfold Decipher.flush
  exact Le.bind' (h.unpad_flush _) fun _ => Le.refl _

end Target.Sub
end Verif
