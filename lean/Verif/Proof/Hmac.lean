import Verif.Model.Hmac
import Verif.Spec.Hmac
import Verif.Proof.Sha256Stream

/-! HMAC: the model computes RFC 2104. -/

namespace Verif.Sha256
open Spec.Sha256 (Machine)

/-- The hash the code computes on target `T`: SHA-256 with the length field modulo the `usize` range. -/
def hashOn (T : Target) (msg : List U8) : List U8 :=
  Spec.Sha256.sha256WithLength (8 * msg.length % 2 ^ T.bits) msg

theorem hashOn_eq (T : Target) (msg : List U8) (h : 8 * msg.length < 2 ^ T.bits) :
    hashOn T msg = Spec.Sha256.sha256 msg := by
  rw [hashOn, Nat.mod_eq_of_lt h]; rfl

/-- Either nothing is checked, or a message of `n` bytes is below the limit. -/
def Fits (T : Target) (n : Nat) : Prop := T.checks = false ∨ 8 * n < 2 ^ T.bits

theorem Fits.mono {T : Target} {n m : Nat} (h : Fits T n) (hm : m ≤ n) : Fits T m :=
  h.imp id (fun h => by omega)

theorem Fits.small (T : Target) {n : Nat} (h : n < 2 ^ 29) : Fits T n :=
  .inr (by have := T.two_pow_ge; omega)

/-- `s` has absorbed exactly `msg`. -/
abbrev Fed (T : Target) (s : SHA256) (msg : List U8) : Prop := R T s (Machine.start.absorb msg)

theorem Fed.new (T : Target) : Fed T .new [] := R_new T

theorem Fed.update {T : Target} {s : SHA256} {msg : List U8} (h : Fed T s msg) (data : List U8)
    (hf : Fits T (msg.length + data.length)) : ∃ s', s.update T data = .ok s' ∧ Fed T s' (msg ++ data) := by
  obtain ⟨s', h1, h2⟩ := update_R T data s _ h (hf.imp id (fun h => by rw [absorb_start_total]; omega))
  refine ⟨s', h1, ?_⟩
  rwa [absorb_absorb] at h2

theorem Fed.digest {T : Target} {s : SHA256} {msg : List U8} (h : Fed T s msg) (hf : Fits T msg.length) :
    ∃ s' d, s.digest T = .ok (s', d) ∧ d.toList = hashOn T msg := by
  obtain ⟨s', d, h1, _, h2⟩ := digest_R T s _ h (hf.imp id (fun h => by
    rw [absorb_start_total, Nat.mod_eq_of_lt] <;> omega))
  refine ⟨s', d, h1, ?_⟩
  rw [h2, finish_start, absorb_start_total, lengthField_eq, hashOn]

/-- `update` under the weaker condition that the byte counter does not overflow. -/
theorem Fed.update' {T : Target} {s : SHA256} {msg : List U8} (h : Fed T s msg) (data : List U8)
    (hf : msg.length + data.length < 2 ^ T.bits) : ∃ s', s.update T data = .ok s' ∧ Fed T s' (msg ++ data) := by
  obtain ⟨s', h1, h2⟩ := update_R T data s _ h (.inr (by rwa [absorb_start_total]))
  refine ⟨s', h1, ?_⟩
  rwa [absorb_absorb] at h2

theorem Fed.update_err {T : Target} {s : SHA256} {msg : List U8} (h : Fed T s msg) (hc : T.checks = true)
    (data : List U8) (hm : msg.length < 2 ^ T.bits) (hbig : 2 ^ T.bits ≤ msg.length + data.length) :
    s.update T data = .error .overflow :=
  update_overflow T data s _ h hc (by rwa [absorb_start_total]) (by rwa [absorb_start_total])

theorem Fed.digest_err {T : Target} {s : SHA256} {msg : List U8} (h : Fed T s msg) (hc : T.checks = true)
    (hm : msg.length < 2 ^ T.bits) (hbig : 2 ^ T.bits ≤ 8 * msg.length) : s.digest T = .error .overflow :=
  digest_panic T s _ h hc (by rw [absorb_start_total, Nat.mod_eq_of_lt hm]; omega)

theorem output_length (h : Spec.Sha256.State) : (Spec.Sha256.output h).length = 32 := by
  obtain ⟨d, _, h2⟩ := output_eq h
  rw [← h2]; simp

@[simp] theorem hashOn_length (T : Target) (msg : List U8) : (hashOn T msg).length = 32 := output_length _

@[simp] theorem sha256_length (msg : List U8) : (Spec.Sha256.sha256 msg).length = 32 := output_length _

end Verif.Sha256

namespace Verif.Hmac
open Verif.Sha256

/-- `hm` is keyed with the 64-byte key `k` and has absorbed `msg`. -/
structure Keyed (T : Target) (hm : HMac) (k msg : List U8) : Prop where
  inner : Fed T hm.inner (k.map (· ^^^ 0x36) ++ msg)
  outer : Fed T hm.outer (k.map (· ^^^ 0x5c))

/-- Zero padding of a short key. -/
def pad64 (key : List U8) : List U8 := key ++ List.replicate (64 - key.length) 0

theorem pad64_length (key : List U8) (h : key.length ≤ 64) : (pad64 key).length = 64 := by
  simp [pad64]; omega

theorem newShort_block (key : List U8) (h : key.length ≤ 64) :
    copyFromSlice (List.replicate BLOCK_SIZE (0 : U8)) 0 key.length key = .ok (pad64 key) := by
  have : (List.replicate BLOCK_SIZE (0 : U8)).length = 64 := List.length_replicate
  simp only [copyFromSlice, this, h, Nat.zero_le, and_self, if_true, Nat.sub_zero, List.take_zero, List.nil_append,
    List.drop_replicate, pad64]
  rfl

/-- `HMac::new` on a short key is a function of the padded key. -/
theorem newShort_eq (T : Target) (key : List U8) (h : key.length ≤ 64) :
    HMac.newShort T key = (do
      let inner ← SHA256.new.update T ((pad64 key).map (· ^^^ 0x36))
      let outer ← SHA256.new.update T ((pad64 key).map (· ^^^ 0x5c))
      return { inner, outer }) := by
  unfold HMac.newShort
  rw [newShort_block key h]
  simp only [ok_bind, List.map_map]
  have e : ((fun elem : U8 => elem ^^^ (0x36 ^^^ 0x5c)) ∘ fun elem => elem ^^^ 0x36) = fun elem => elem ^^^ 0x5c := by
    funext x
    simp only [Function.comp_apply]
    rw [BitVec.xor_assoc]
    rfl
  rw [e]

theorem newShort_keyed (T : Target) (key : List U8) (h : key.length ≤ 64) :
    ∃ hm, HMac.newShort T key = .ok hm ∧ Keyed T hm (pad64 key) [] := by
  rw [newShort_eq T key h]
  have hl := pad64_length key h
  obtain ⟨si, h1, hi⟩ := (Fed.new T).update ((pad64 key).map (· ^^^ 0x36)) (Fits.small T (by simp [hl]))
  obtain ⟨so, h2, ho⟩ := (Fed.new T).update ((pad64 key).map (· ^^^ 0x5c)) (Fits.small T (by simp [hl]))
  rw [h1, ok_bind, h2]
  exact ⟨_, rfl, by simpa using hi, by simpa using ho⟩

theorem new_keyed (T : Target) (key : List U8) (h : Fits T key.length) :
    ∃ hm, HMac.new T key = .ok hm ∧ Keyed T hm (Spec.hmacKey (hashOn T) key) [] := by
  unfold HMac.new
  by_cases hk : key.length > BLOCK_SIZE
  · obtain ⟨s, h1, hs⟩ := (Fed.new T).update key (h.mono (by simp))
    obtain ⟨s', d, h2, hd⟩ := hs.digest (h.mono (by simp))
    have hl : d.toList.length ≤ 64 := by simp
    obtain ⟨hm, h3, hm'⟩ := newShort_keyed T d.toList hl
    refine ⟨hm, ?_, ?_⟩
    · rw [if_pos hk]
      simp only [h1, ok_bind, h2, h3]
    · simp only [BLOCK_SIZE] at hk
      simp only [pad64, hd, List.nil_append] at hm'
      simpa [Spec.hmacKey, hk] using hm'
  · obtain ⟨hm, h3, hm'⟩ := newShort_keyed T key (by simpa [BLOCK_SIZE] using hk)
    refine ⟨hm, by rw [if_neg hk]; exact h3, ?_⟩
    simp only [BLOCK_SIZE] at hk
    simpa [Spec.hmacKey, hk, pad64] using hm'

theorem new_err (T : Target) (key : List U8) (hc : T.checks = true) (h : 2 ^ T.bits ≤ 8 * key.length) :
    HMac.new T key = .error .overflow := by
  have := T.two_pow_ge
  rw [HMac.new, if_pos (by simp only [BLOCK_SIZE]; omega)]
  by_cases hk : key.length < 2 ^ T.bits
  · obtain ⟨s, h1, hs⟩ := (Fed.new T).update' key (by simpa using hk)
    simp only [h1, ok_bind]
    rw [hs.digest_err hc (by simpa using hk) (by simpa using h)]
    rfl
  · simp only
    rw [(Fed.new T).update_err hc key (Nat.two_pow_pos _) (by simpa using hk)]
    rfl

theorem hmacKey_length (T : Target) (key : List U8) : (Spec.hmacKey (hashOn T) key).length = 64 := by
  unfold Spec.hmacKey
  by_cases h : key.length > 64
  · simp [h]
  · simp [h]; omega

theorem Keyed.update {T : Target} {hm : HMac} {k msg : List U8} (h : Keyed T hm k msg) (data : List U8)
    (hf : Fits T (k.length + msg.length + data.length)) :
    ∃ hm', hm.update T data = .ok hm' ∧ Keyed T hm' k (msg ++ data) := by
  obtain ⟨s, h1, hs⟩ := h.inner.update data (hf.mono (by simp))
  refine ⟨{ hm with inner := s }, ?_, ?_, h.outer⟩
  · simp [HMac.update, h1]
  · simpa using hs

theorem Keyed.digest {T : Target} {hm : HMac} {k msg : List U8} (h : Keyed T hm k msg) (hk : k.length = 64)
    (hf : Fits T (64 + msg.length)) :
    ∃ hm' d, hm.digest T = .ok (hm', d) ∧
      d.toList = hashOn T (k.map (· ^^^ 0x5c) ++ hashOn T (k.map (· ^^^ 0x36) ++ msg)) := by
  obtain ⟨si, d1, h1, hd1⟩ := h.inner.digest (hf.mono (by simp [hk]))
  obtain ⟨so, h2, ho⟩ := h.outer.update d1.toList (Fits.small T (by simp [hk]))
  obtain ⟨so', d2, h3, hd2⟩ := ho.digest (Fits.small T (by simp [hk]))
  refine ⟨⟨si, so'⟩, d2, ?_, by rw [hd2, hd1]⟩
  simp only [HMac.digest, h1, ok_bind, h2, h3, pure_eq_ok]

/-- One-shot MAC with a list of updates. -/
theorem mac_eq (T : Target) (key : List U8) (chunks : List (List U8)) (hk : Fits T key.length)
    (hf : Fits T (64 + chunks.flatten.length)) :
    ∃ hm hm' d, (do let hm ← HMac.new T key; chunks.foldlM (HMac.update T) hm) = .ok hm ∧
      hm.digest T = .ok (hm', d) ∧ d.toList = Spec.hmac (hashOn T) key chunks.flatten := by
  obtain ⟨hm0, h1, hK⟩ := new_keyed T key hk
  have hl := hmacKey_length T key
  have : ∀ (cs : List (List U8)) (hm : HMac) (msg : List U8),
      Keyed T hm (Spec.hmacKey (hashOn T) key) msg → Fits T (64 + (msg ++ cs.flatten).length) →
      ∃ hm', cs.foldlM (HMac.update T) hm = .ok hm' ∧ Keyed T hm' (Spec.hmacKey (hashOn T) key) (msg ++ cs.flatten) := by
    intro cs
    induction cs with
    | nil => intro hm msg h _; exact ⟨hm, rfl, by simpa using h⟩
    | cons c cs ih =>
      intro hm msg h hf
      obtain ⟨hm', h1, h2⟩ := h.update c (hf.mono (by simp [hl]; omega))
      obtain ⟨hm'', h3, h4⟩ := ih hm' _ h2 (hf.mono (by simp))
      refine ⟨hm'', ?_, by simpa using h4⟩
      rw [List.foldlM_cons, h1]
      exact h3
  obtain ⟨hm, h2, hK2⟩ := this chunks hm0 [] hK (by simpa using hf)
  obtain ⟨hm', d, h3, hd⟩ := hK2.digest hl (by simpa using hf)
  refine ⟨hm, hm', d, by rw [h1]; exact h2, h3, ?_⟩
  rw [hd]
  rfl

end Verif.Hmac
